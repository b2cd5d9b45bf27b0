/-
C107: what a program does not mention it does not notice.
-/
import Verif.Lemmas.Unaware
import Verif.Props.Propagate

namespace Btrd
open Spec

/-- **C107** The checks do not notice a variable that the program does not mention: from two sets of names, scope by scope the
same but for `x`, the verdict is the same, the error included, and the names known afterwards are again the same but for `x`. -/
theorem C107_checks (x : Str) (p : List Stmt) (hp : UnawareAll x p) (known known' : AState)
    (hd : known'.loopDepth = known.loopDepth) (h : ButFor x known.vars known'.vars) :
    (analyzeStmts p known').2 = (analyzeStmts p known).2 ∧ ButFor x (analyzeStmts p known).1.vars (analyzeStmts p known').1.vars :=
  have := but_stmts p hp known known' h hd
  ⟨this.verdict, this.vars⟩

/-- **C107** Nor does the run: from two states that differ in `x` at most, in any world that changes meanwhile, a program that
does not mention `x` makes the same requests at the same moments, with the same warnings, has the same result, be it a success
or an error, and ends in states (output, filesystem, variables) that differ in `x` at most. -/
theorem C107_runs (x : Str) (p : List Stmt) (hp : UnawareAll x p) (cfg : Cfg) (st st' : State) (h : AlikeBut x st st')
    (fuel : Nat) (ω : Live) (t : Nat) :
    ((evalStmtsT cfg p st').live fuel ω t).log = ((evalStmtsT cfg p st).live fuel ω t).log ∧
    ((evalStmtsT cfg p st').live fuel ω t).clock = ((evalStmtsT cfg p st).live fuel ω t).clock ∧
    ((evalStmtsT cfg p st').live fuel ω t).result.2 = ((evalStmtsT cfg p st).live fuel ω t).result.2 ∧
    AlikeBut x ((evalStmtsT cfg p st).live fuel ω t).result.1 ((evalStmtsT cfg p st').live fuel ω t).result.1 := by
  obtain ⟨h1, h2, h3, h4⟩ := near_stmts cfg p hp st st' h fuel ω t
  exact ⟨h2, h1, h3, h4⟩

theorem unaware_keeps {x : Str} {p : List Stmt} (hp : UntouchedAll x p) (cfg : Cfg) (st : State) (fuel : Nat) (ω : Live) (t : Nat) :
    slots ((evalStmtsT cfg p st).live fuel ω t).result.1.vars x = slots st.vars x :=
  Leads.result fuel ω (stmts_keep (N := fun y => y = x) cfg p (by rintro _ rfl; exact hp) st) t x rfl

/-- **C107** And it leaves `x` as it is. -/
theorem C107_left (x : Str) (p : List Stmt) (hp : UnawareAll x p) (cfg : Cfg) (st : State) (fuel : Nat) (ω : Live) (t : Nat) :
    ((evalStmtsT cfg p st).live fuel ω t).result.1.vars.get x = st.vars.get x := by
  rw [get_eq_read, get_eq_read, unaware_keeps (unaware_stmts hp)]

/-! ### an assignment may be made later -/

theorem butFor_ne {T : Type} {x : Str} {a b : Vars T} (h : ButFor x a b) (hb : b ≠ []) : a ≠ [] := by
  cases h with
  | nil => exact hb
  | cons _ _ => simp

theorem insert_ne {T : Type} {a b : Vars T} {x : Str} {v : T} (h : Vars.insert a x v = .ok b) : b ≠ [] := by
  cases a with
  | nil => cases h
  | cons s vs =>
    have := insert_length h
    intro hb
    subst hb
    simp at this

theorem slots_ne {T : Type} {a b : Vars T} {x : Str} (h : slots a x = slots b x) (hb : b ≠ []) : a ≠ [] := by
  rintro rfl
  cases b with
  | nil => exact hb rfl
  | cons s vs => simp [slots] at h

/-- **C107** An assignment may be made after the statements that follow it, if they do not mention the variable, assign to none
of those in `c`, and do not leave the block: a program that ends without an error does the same. -/
theorem C107_later (x : Str) (c : Expr) (hc : Simple c) (p : List Stmt) (hx : UnawareAll x p) (hy : ∀ y ∈ c.uses, UntouchedAll y p)
    (hj : NoJumps p) (hq : NoQuits p) : StandsIn (.assign (.ident x) c :: p) (p ++ [.assign (.ident x) c]) := by
  refine ⟨fun a h => ?_, fun cfg st _ fuel ω t h => ?_⟩
  · rw [analyze_append]
    rw [analyzeStmts, analyzeStmt] at h ⊢
    unfold AState.declare at h ⊢
    cases hi : a.vars.insert x () with
    | error e => rw [hi] at h; cases h
    | ok vs =>
      rw [hi, then_of] at h
      rw [then_of]
      dsimp only at h ⊢
      cases he : analyzeExpr vs c with
      | error e => rw [he] at h; cases h
      | ok u =>
        rw [he, then_of] at h
        rw [then_of]
        have hb := but_stmts p hx a { a with vars := vs } (but_insert hi) rfl
        have hs := still_stmts p hx a
        have hs' := still_stmts p hx { a with vars := vs }
        have hk := knows_stmts (N := defined vs) p { a with vars := vs } (fun y hd => by
          dsimp only
          unfold defined at hd
          cases hg : vs.get y with
          | some u => rfl
          | none => simp [hg] at hd)
        generalize analyzeStmts p a = A at *
        generalize analyzeStmts p { a with vars := vs } = B at *
        obtain ⟨A, ra⟩ := A
        obtain ⟨⟨w, d⟩, rb⟩ := B
        obtain ⟨h1, h2, h3⟩ := hb
        dsimp only at h h1 h2 h3 hs hs' hk
        subst h h1 h2
        have hw : w ≠ [] := slots_ne hs' (insert_ne hi)
        rw [then_of, check_single, analyzeStmt]
        unfold AState.declare
        obtain ⟨w', hw'⟩ := insert_ok A.vars x () (butFor_ne h3 hw)
        have e : w' = w := by
          refine ButFor.eq ((ButFor.symm h3).trans (but_insert hw')) ?_
          rw [(insert_slots hw').1, hs, hs', (insert_slots hi).1]
        subst e
        rw [hw', then_of]
        dsimp only
        have hr := (analyzeExpr_iff vs c).1 he
        rw [(analyzeExpr_iff w' c).2 ⟨hr.1, fun y hu => by
          unfold defined
          rw [hk y (hr.2 y hu)]
          simp⟩]
  · rw [eval_append]
    rw [eval_cons, evalStmtT] at h ⊢
    obtain ⟨r, he⟩ := simple_plainly cfg st hc
    unfold evalAssignT at h ⊢
    rw [he] at h ⊢
    cases r with
    | error e => exact absurd rfl (h e)
    | ok v =>
      rw [into_of] at h ⊢
      dsimp only at h ⊢
      cases hi : st.vars.insert x v with
      | error e => rw [hi] at h; exact absurd rfl (h e)
      | ok w =>
        rw [hi, into_of] at h
        rw [into_of]
        change ∀ f, ((evalStmtsT cfg p { st with vars := w }).live fuel ω t).result.2 ≠ .fail f at h
        show _ = (evalStmtsT cfg p { st with vars := w }).live fuel ω t
        have hn := near_stmts cfg p hx st { st with vars := w } ⟨rfl, rfl, but_insert hi⟩ fuel ω t
        have hs := unaware_keeps (unaware_stmts hx) cfg st fuel ω t
        have hs' := unaware_keeps (unaware_stmts hx) cfg { st with vars := w } fuel ω t
        have hk := Leads.result fuel ω (stmts_keep (N := fun y => y ∈ c.uses) cfg p hy st) t
        have h1 := Leads.result fuel ω (stmts_straight cfg p hj { st with vars := w }) t
        have h2 := Leads.result fuel ω (stmts_stay cfg p hq { st with vars := w }) t
        rw [live_bind]
        generalize (evalStmtsT cfg p st).live fuel ω t = A at *
        generalize (evalStmtsT cfg p { st with vars := w }).live fuel ω t = B at *
        obtain ⟨ca, la, sa, ra⟩ := A
        obtain ⟨cb, lb, sb, rb⟩ := B
        obtain ⟨n1, n2, n3, n4⟩ := hn
        dsimp only at n1 n2 n3 n4 hs hs' hk h h1 h2 ⊢
        subst n1 n2 n3
        cases rb with
        | fail f => exact absurd rfl (h f)
        | brk => exact absurd rfl h1.1
        | cont => exact absurd rfl h1.2
        | quit => exact absurd rfl h2
        | ok =>
          obtain ⟨w', hw'⟩ := insert_ok sa.vars x v (butFor_ne n4.vars (slots_ne hs' (insert_ne hi)))
          have e : sb = { sa with vars := w' } := by
            obtain ⟨m1, m2, m3⟩ := n4
            have : sb.vars = w' := by
              refine ButFor.eq ((ButFor.symm (but_insert hw')).trans m3) ?_
              rw [(insert_slots hw').1, hs, hs', (insert_slots hi).1]
            cases sa; cases sb
            dsimp only at *
            subst m1 m2 this
            rfl
          subst e
          have hv : evalExprT cfg sa c = E.of (.ok v) := by
            rw [simple_depends cfg hc (st := st) fun y hu => KeptAs.get hk hu, he]
          have : evalStmtsT cfg [.assign (.ident x) c] sa = .ret ({ sa with vars := w' }, .ok) := by
            rw [eval_single, evalStmtT]
            unfold evalAssignT
            rw [hv, into_of]
            dsimp only
            rw [hw', into_of]
          show Lived.mk _ _ _ = _
          simp only [onwards]
          rw [this]
          simp [T.live]

/-! ### an assignment that is overwritten later -/

theorem insert_alike {T : Type} {x : Str} {a b s w : Vars T} {v₀ : T} (h : ButFor x a b) (ha : slots a x = slots s x) (hb : slots b x = slots w x)
    (hi : Vars.insert s x v₀ = .ok w) (v : T) : ∃ u, Vars.insert a x v = .ok u ∧ Vars.insert b x v = .ok u := by
  have hbn : b ≠ [] := slots_ne hb (insert_ne hi)
  obtain ⟨u, hu⟩ := insert_ok a x v (butFor_ne h hbn)
  obtain ⟨u', hu'⟩ := insert_ok b x v hbn
  have hs : s ≠ [] := by
    rintro rfl
    cases hi
  obtain ⟨z, hz⟩ := insert_ok s x v hs
  have hz' := insert_twice x v₀ v hi
  rw [hz] at hz'
  have e : u' = u := by
    refine ButFor.eq (((ButFor.symm (but_insert hu)).trans h).trans (but_insert hu')) ?_
    rw [(insert_slots hu').1, (insert_slots hu).1, ha, hb, ← (insert_slots hz).1, ← (insert_slots hz').1]
  subst e
  exact ⟨_, hu, hu'⟩

/-- **C107** An assignment may be left out if a later one in the same block overwrites it, the second does not read the variable,
what stands between them does not mention it, and does not leave the block: a program that ends without an error does the same. -/
theorem C107_dead (x : Str) (c e : Expr) (hc : Simple c) (he : x ∉ e.uses) (p : List Stmt) (hx : UnawareAll x p)
    (hj : NoJumps p) (hq : NoQuits p) :
    StandsIn (.assign (.ident x) c :: (p ++ [.assign (.ident x) e])) (p ++ [.assign (.ident x) e]) := by
  refine ⟨fun a h => ?_, fun cfg st _ fuel ω t h => ?_⟩
  · rw [analyzeStmts, analyzeStmt] at h ⊢
    unfold AState.declare at h ⊢
    cases hi : a.vars.insert x () with
    | error e => rw [hi] at h; cases h
    | ok vs =>
      rw [hi, then_of] at h
      rw [then_of]
      dsimp only at h ⊢
      cases hck : analyzeExpr vs c with
      | error e => rw [hck] at h; cases h
      | ok u =>
        rw [hck, then_of, analyze_append] at h
        rw [then_of, analyze_append, analyze_append]
        have hb := but_stmts p hx a { a with vars := vs } (but_insert hi) rfl
        have hs := still_stmts p hx a
        have hs' := still_stmts p hx { a with vars := vs }
        generalize analyzeStmts p a = A at *
        generalize analyzeStmts p { a with vars := vs } = B at *
        obtain ⟨⟨A, da⟩, ra⟩ := A
        obtain ⟨⟨B, d⟩, rb⟩ := B
        obtain ⟨h1, h2, h3⟩ := hb
        dsimp only at h1 h2 h3 hs hs'
        subst h1 h2
        cases rb with
        | error e => cases h
        | ok u =>
          rw [then_of, then_of, check_single, check_single, analyzeStmt, analyzeStmt]
          unfold AState.declare
          obtain ⟨w, h1, h2⟩ := insert_alike h3 hs hs' hi ()
          dsimp only
          rw [h1, h2]
  · rw [eval_append]
    rw [eval_cons, evalStmtT] at h ⊢
    obtain ⟨r, hr⟩ := simple_plainly cfg st hc
    unfold evalAssignT at h ⊢
    rw [hr] at h ⊢
    cases r with
    | error e => exact absurd rfl (h e)
    | ok v =>
      rw [into_of] at h ⊢
      dsimp only at h ⊢
      cases hi : st.vars.insert x v with
      | error e => rw [hi] at h; exact absurd rfl (h e)
      | ok w =>
        rw [hi, into_of] at h
        rw [into_of]
        change ∀ f, ((evalStmtsT cfg (p ++ [.assign (.ident x) e]) { st with vars := w }).live fuel ω t).result.2 ≠ .fail f at h
        show _ = (evalStmtsT cfg (p ++ [.assign (.ident x) e]) { st with vars := w }).live fuel ω t
        rw [eval_append, live_bind] at h
        rw [eval_append]
        have hn := near_stmts cfg p hx st { st with vars := w } ⟨rfl, rfl, but_insert hi⟩ fuel ω t
        have hs := unaware_keeps (unaware_stmts hx) cfg st fuel ω t
        have hs' := unaware_keeps (unaware_stmts hx) cfg { st with vars := w } fuel ω t
        have h1 := Leads.result fuel ω (stmts_straight cfg p hj { st with vars := w }) t
        have h2 := Leads.result fuel ω (stmts_stay cfg p hq { st with vars := w }) t
        rw [live_bind, live_bind]
        generalize (evalStmtsT cfg p st).live fuel ω t = A at *
        generalize (evalStmtsT cfg p { st with vars := w }).live fuel ω t = B at *
        obtain ⟨ca, la, sa, ra⟩ := A
        obtain ⟨cb, lb, sb, rb⟩ := B
        obtain ⟨n1, n2, n3, n4⟩ := hn
        dsimp only at n1 n2 n3 n4 hs hs' h1 h2 h ⊢
        subst n1 n2 n3
        cases rb with
        | fail f => exact absurd rfl (h f)
        | brk => exact absurd rfl h1.1
        | cont => exact absurd rfl h1.2
        | quit => exact absurd rfl h2
        | ok =>
          have same : SubS False (evalStmtsT cfg [.assign (.ident x) e] sb) (evalStmtsT cfg [.assign (.ident x) e] sa) := by
            rw [eval_single, eval_single, evalStmtT, evalStmtT]
            unfold evalAssignT
            rw [near_expr cfg n4 he]
            refine live_near (evalExprT cfg sa e) fun v' => .inl ?_
            obtain ⟨u, h1, h2⟩ := insert_alike n4.vars hs hs' hi v'
            dsimp only
            rw [h1, h2, into_of, into_of, n4.fs, n4.sink]
            exact Along.refl _
          simp only [onwards] at h ⊢
          rw [same fuel ω _ (.inr h)]

/-! ### a variable that nothing reads -/

/-- the runs are the same, but that the variable differs at the end -/
structure RunBut (x : Str) (l l' : Lived (State × IRes)) : Prop where
  clock : l'.clock = l.clock
  log : l'.log = l.log
  ends : l'.result.2 = l.result.2
  state : AlikeBut x l.result.1 l'.result.1

theorem unused_stmts (x : Str) (c : Expr) (hc : Simple c) (q p : List Stmt) (hx : UnawareAll x p) (cfg : Cfg) (st : State) (hne : st.vars ≠ [])
    (fuel : Nat) (ω : Live) (t : Nat)
    (hok : IsLiteral c ∨ ∀ f, ((evalStmtsT cfg (q ++ .assign (.ident x) c :: p) st).live fuel ω t).result.2 ≠ .fail f) :
    RunBut x ((evalStmtsT cfg (q ++ p) st).live fuel ω t) ((evalStmtsT cfg (q ++ .assign (.ident x) c :: p) st).live fuel ω t) := by
  rw [eval_append, live_bind] at hok
  rw [eval_append, eval_append, live_bind, live_bind]
  have hl := Leads.result fuel ω (stmts_level cfg q st) t
  generalize (evalStmtsT cfg q st).live fuel ω t = A at *
  obtain ⟨ca, la, s1, r1⟩ := A
  cases r1 with
  | ok =>
    dsimp only [onwards] at hok hl ⊢
    have hne1 : s1.vars ≠ [] := by
      intro h
      rw [h] at hl
      exact hne (List.length_eq_zero_iff.1 hl.symm)
    obtain ⟨r, he⟩ := simple_plainly cfg s1 hc
    cases r with
    | error e =>
      exfalso
      rcases hok with hok | hok
      · cases c with
        | int i => rw [evalExprT] at he; cases he
        | bool i => rw [evalExprT] at he; cases he
        | str i => rw [evalExprT] at he; cases he
        | _ => exact hok.elim
      · refine hok e ?_
        rw [eval_cons, evalStmtT]
        unfold evalAssignT
        rw [he]
        rfl
    | ok v =>
      obtain ⟨w, hw⟩ := insert_ok s1.vars x v hne1
      have e : evalStmtsT cfg (.assign (.ident x) c :: p) s1 = evalStmtsT cfg p { s1 with vars := w } := by
        rw [eval_cons, evalStmtT]
        unfold evalAssignT
        rw [he, into_of]
        dsimp only
        rw [hw, into_of]
        rfl
      rw [e]
      obtain ⟨h1, h2, h3, h4⟩ := near_stmts cfg p hx s1 { s1 with vars := w } ⟨rfl, rfl, but_insert hw⟩ fuel ω ca
      exact ⟨h1, by dsimp only; rw [h2], h3, h4⟩
  | _ => exact ⟨rfl, rfl, rfl, AlikeBut.refl _⟩

theorem unused_checks (x : Str) (c : Expr) (q p : List Stmt) (hx : UnawareAll x p) (a : AState) (hne : a.vars ≠ [])
    (hok : IsLiteral c ∨ (analyzeStmts (q ++ .assign (.ident x) c :: p) a).2 = .ok ()) :
    (analyzeStmts (q ++ .assign (.ident x) c :: p) a).2 = (analyzeStmts (q ++ p) a).2 := by
  rw [analyze_append] at hok
  rw [analyze_append, analyze_append]
  have hl := gained_length (analyzed_stmts q a hne).gained
  generalize analyzeStmts q a = A at *
  obtain ⟨A, ra⟩ := A
  cases ra with
  | error e => rfl
  | ok u =>
    dsimp only at hl
    rw [then_of] at hok
    rw [then_of, then_of]
    obtain ⟨vs, hi⟩ := insert_ok A.vars x () (by
      intro h
      rw [h] at hl
      exact hne (List.length_eq_zero_iff.1 hl.symm))
    rw [analyzeStmts, analyzeStmt] at hok ⊢
    unfold AState.declare at hok ⊢
    rw [hi, then_of] at hok
    rw [hi, then_of]
    dsimp only at hok ⊢
    cases hck : analyzeExpr vs c with
    | error e =>
      rw [hck] at hok
      rcases hok with hok | hok
      · cases c with
        | int i => rw [analyzeExpr] at hck; cases hck
        | bool i => rw [analyzeExpr] at hck; cases hck
        | str i => rw [analyzeExpr] at hck; cases hck
        | _ => exact hok.elim
      · cases hok
    | ok u =>
      rw [then_of]
      exact (but_stmts p hx A { A with vars := vs } (but_insert hi) rfl).verdict

/-- **C107** A variable that is set to a literal and not mentioned after that in the script need not be set: output, standard
error, exit status and requests are the same, whether the script succeeds or not, in any world. -/
theorem C107_unused_literal (x : Str) (c : Expr) (hc : IsLiteral c) (q p : List Stmt) (hx : UnawareAll x p) (cfg : Cfg)
    (room : Option Nat) (ω : Live) (s s' : Str) (hs : Spells (stripComments s) (q ++ .assign (.ident x) c :: p))
    (hs' : Spells (stripComments s') (q ++ p)) :
    scriptMainL cfg room ω (some (encoded s')) = scriptMainL cfg room ω (some (encoded s)) := by
  simp only [scriptMainL, decoded]
  unfold runtimeEvalT
  rw [spells_iff.1 hs, spells_iff.1 hs']
  dsimp only
  have ha := unused_checks x c q p hx (RState.new { cfg with interactive := false } room).sem (by simp [RState.new, AState.new]) (.inl hc)
  generalize analyzeStmts (q ++ p) _ = A at *
  generalize analyzeStmts (q ++ .assign (.ident x) c :: p) _ = B at *
  obtain ⟨A, ra⟩ := A
  obtain ⟨B, rb⟩ := B
  dsimp only at ha
  subst ha
  cases rb with
  | error e => rfl
  | ok u =>
    dsimp only
    have hs : Simple c := by
      cases c with
      | int i => trivial
      | bool i => trivial
      | str i => trivial
      | _ => exact hc.elim
    have h := unused_stmts x c hs q p hx { cfg with interactive := false } (RState.new { cfg with interactive := false } room).ev
      (by simp [RState.new, State.new]) cfg.fuel ω 0 (.inl hc)
    rw [live_bind, live_bind]
    simp only [T.live, List.append_nil]
    rw [h.log, h.ends, h.state.sink]

/-- **C107** So with any value that needs neither calls nor casts, if the script succeeds. -/
theorem C107_unused (x : Str) (c : Expr) (hc : Simple c) (q p : List Stmt) (hx : UnawareAll x p) (cfg : Cfg) (room : Option Nat)
    (ω : Live) (s s' : Str) (hs : Spells (stripComments s) (q ++ .assign (.ident x) c :: p)) (hs' : Spells (stripComments s') (q ++ p))
    (hok : (scriptMainL cfg room ω (some (encoded s))).1.exit = .success) :
    scriptMainL cfg room ω (some (encoded s')) = scriptMainL cfg room ω (some (encoded s)) := by
  simp only [scriptMainL, decoded] at hok ⊢
  unfold runtimeEvalT at hok ⊢
  rw [spells_iff.1 hs] at hok
  rw [spells_iff.1 hs, spells_iff.1 hs']
  dsimp only at hok ⊢
  have ha := unused_checks x c q p hx (RState.new { cfg with interactive := false } room).sem (by simp [RState.new, AState.new]) (.inr ?_)
  · generalize analyzeStmts (q ++ p) _ = A at *
    generalize analyzeStmts (q ++ .assign (.ident x) c :: p) _ = B at *
    obtain ⟨A, ra⟩ := A
    obtain ⟨B, rb⟩ := B
    dsimp only at ha
    subst ha
    cases rb with
    | error e => rfl
    | ok u =>
      dsimp only at hok ⊢
      rw [live_bind] at hok
      have h := unused_stmts x c hc q p hx { cfg with interactive := false } (RState.new { cfg with interactive := false } room).ev
        (by simp [RState.new, State.new]) cfg.fuel ω 0 (.inr fun f hf => by
          simp only [T.live] at hok
          rw [hf] at hok
          cases f <;> simp [scriptExit, IRes.toEvalResult] at hok)
      rw [live_bind, live_bind]
      simp only [T.live, List.append_nil]
      rw [h.log, h.ends, h.state.sink]
  · generalize analyzeStmts (q ++ .assign (.ident x) c :: p) _ = B at hok ⊢
    obtain ⟨B, rb⟩ := B
    cases rb with
    | ok u => rfl
    | error e =>
      simp only [T.live] at hok
      cases e <;> simp [scriptExit] at hok

/-! ### sessions -/

/-- two processes that differ in one variable at most -/
structure ProcBut (x : Str) (p p' : Proc) : Prop where
  err : p'.err = p.err
  depth : p'.rs.sem.loopDepth = p.rs.sem.loopDepth
  names : ButFor x p.rs.sem.vars p'.rs.sem.vars
  state : AlikeBut x p.rs.ev p'.rs.ev

/-- the same for what comes of a step -/
structure StepBut (x : Str) (r r' : (Proc × ProcStatus) × List Event) : Prop where
  log : r'.2 = r.2
  status : r'.1.2 = r.1.2
  proc : ProcBut x r.1.1 r'.1.1

theorem ProcBut.refl (x : Str) (p : Proc) : ProcBut x p p := ⟨rfl, rfl, ButFor.refl _, AlikeBut.refl _⟩

theorem println_but {x : Str} {p p' : Proc} (h : ProcBut x p p') (s : Str) (k : ProcStatus) (l : List Event) :
    StepBut x (p.println s k, l) (p'.println s k, l) := by
  obtain ⟨h1, h2, h3, h4⟩ := h
  unfold Proc.println State.println State.write
  rw [h4.sink, h1]
  cases p.rs.ev.sink.write (s ++ ['\n']) with
  | mk q r => cases r <;> exact ⟨rfl, rfl, rfl, h2, h3, h4.fs, rfl, h4.vars⟩

theorem procLine_but {x : Str} {err : List ErrLine} {l l' : Lived (RState × EvalResult)} (hl : l'.log = l.log) (hr : l'.result.2 = l.result.2)
    (hp : ProcBut x ⟨l.result.1, []⟩ ⟨l'.result.1, []⟩) : StepBut x (procLine err l) (procLine err l') := by
  obtain ⟨c, lg, rs, r⟩ := l
  obtain ⟨c', lg', rs', r'⟩ := l'
  dsimp only at hl hr hp
  subst hl hr
  obtain ⟨_, h2, h3, h4⟩ := hp
  unfold procLine
  cases r' with
  | ok => exact ⟨rfl, rfl, rfl, h2, h3, h4⟩
  | quit => exact ⟨rfl, rfl, rfl, h2, h3, h4⟩
  | fail f => cases f <;> exact ⟨rfl, rfl, rfl, h2, h3, h4⟩

theorem step_but {x : Str} {p p' : Proc} (h : ProcBut x p p') (cfg : Cfg) (ω : Live) (e : ReplEvent) (he : NotMentioned x e) :
    StepBut x (procStepL cfg ω p e) (procStepL cfg ω p' e) := by
  cases e with
  | line s =>
    unfold procStepL
    rw [h.err]
    have : (Near (fun a b : RState × EvalResult => b.2 = a.2 ∧ ProcBut x ⟨a.1, []⟩ ⟨b.1, []⟩)
        (runtimeEvalT cfg p.rs (entryText s)) (runtimeEvalT cfg p'.rs (entryText s))) := by
      unfold runtimeEvalT
      cases hq : parse (entryText s) with
      | none => exact near_ret ⟨rfl, rfl, h.depth, h.names, h.state⟩
      | some q =>
        dsimp only
        have hx := he s rfl q (spells_iff.2 hq)
        have hb := but_stmts q hx _ _ h.names h.depth
        generalize analyzeStmts q p.rs.sem = A at *
        generalize analyzeStmts q p'.rs.sem = B at *
        obtain ⟨A, ra⟩ := A
        obtain ⟨B, rb⟩ := B
        obtain ⟨h1, h2, h3⟩ := hb
        dsimp only at h1 h2 h3
        subst h1
        cases rb with
        | error e => exact near_ret ⟨rfl, rfl, h2, h3, h.state⟩
        | ok u =>
          refine near_bind (near_stmts cfg q hx _ _ h.state) fun a b hab => near_ret ⟨?_, rfl, h2, h3, hab.2⟩
          dsimp only
          rw [hab.1]
    obtain ⟨_, h2, h3, h4⟩ := this cfg.fuel ω 0
    exact procLine_but h2 h3 h4
  | interrupted => exact ⟨rfl, rfl, by simp only [procStepL, procStep]; rw [h.err], h.depth, h.names, h.state⟩
  | eof => exact println_but h _ _ _
  | otherError =>
    refine println_but (p := ⟨p.rs, p.err ++ [.logged]⟩) (p' := ⟨p'.rs, p'.err ++ [.logged]⟩) ⟨?_, h.depth, h.names, h.state⟩ _ _ _
    dsimp only
    rw [h.err]

theorem meets_but {x : Str} {p p' : Proc} (h : ProcBut x p p') (d : Fs → Fs) : ProcBut x (p.meets d) (p'.meets d) :=
  ⟨h.err, h.depth, h.names, by unfold Proc.meets; dsimp only; rw [h.state.fs], h.state.sink, h.state.vars⟩

theorem run_but {x : Str} (cfg : Cfg) : ∀ (ts : List LiveTick), (∀ t ∈ ts, NotMentioned x t.event) → ∀ p p', ProcBut x p p' →
    StepBut x (procRunL cfg p ts) (procRunL cfg p' ts)
  | [], _, p, p', h => ⟨rfl, rfl, h⟩
  | t :: ts, hts, p, p', h => by
    rw [procRunL, procRunL]
    have hs := step_but (meets_but h t.drift) cfg t.world t.event (hts t List.mem_cons_self)
    generalize procStepL cfg t.world (p.meets t.drift) t.event = a at *
    generalize procStepL cfg t.world (p'.meets t.drift) t.event = b at *
    obtain ⟨⟨a, k⟩, la⟩ := a
    obtain ⟨⟨b, k'⟩, lb⟩ := b
    obtain ⟨h1, h2, h3⟩ := hs
    dsimp only at h1 h2 h3
    subst h1 h2
    cases k'
    · have := run_but cfg ts (fun t ht => hts t (List.mem_cons_of_mem _ ht)) a b h3
      exact ⟨by dsimp only; rw [this.log], this.status, this.proc⟩
    all_goals exact ⟨rfl, rfl, h3⟩

/-- both halves of the interpreter have a scope -/
def Scoped (rs : RState) : Prop := rs.sem.vars ≠ [] ∧ rs.ev.vars ≠ []

theorem some_scope {T : Type} {a b : List T} (h : b.length = a.length) (ha : a ≠ []) : b ≠ [] := by
  rintro rfl
  exact ha (List.length_eq_zero_iff.1 h.symm)

theorem scoped_entry (cfg : Cfg) (rs : RState) (h : Scoped rs) (s : Str) : Leads (fun r : RState × EvalResult => Scoped r.1) (runtimeEvalT cfg rs s) := by
  unfold runtimeEvalT
  cases parse s with
  | none => exact .ret h
  | some q =>
    dsimp only
    have hl := gained_length (analyzed_stmts q rs.sem h.1).gained
    generalize analyzeStmts q rs.sem = A at *
    obtain ⟨A, ra⟩ := A
    cases ra with
    | error e => exact .ret ⟨some_scope hl h.1, h.2⟩
    | ok u => exact Leads.bind (fun r hr => .ret ⟨some_scope hl h.1, some_scope hr h.2⟩) (stmts_level cfg q rs.ev)

theorem scoped_println {p : Proc} (h : Scoped p.rs) (s : Str) (k : ProcStatus) : Scoped (p.println s k).1.rs := by
  have hv := println_vars p.rs.ev s
  unfold Proc.println
  generalize p.rs.ev.println s = r at *
  obtain ⟨ev, b⟩ := r
  dsimp only at hv
  cases b <;> exact ⟨h.1, by dsimp only; rw [hv]; exact h.2⟩

theorem scoped_start (cfg : Cfg) (room : Option Nat) : Scoped (procStart cfg room).1.rs := by
  have hv := printlns_vars welcomeLines (State.new cfg room)
  unfold procStart
  generalize (State.new cfg room).printlns welcomeLines = r at *
  obtain ⟨ev, b⟩ := r
  dsimp only at hv
  cases b <;> exact ⟨by simp [AState.new], by dsimp only; rw [hv]; simp [State.new]⟩

theorem scoped_step (cfg : Cfg) (ω : Live) (p : Proc) (h : Scoped p.rs) (e : ReplEvent) : Scoped (procStepL cfg ω p e).1.1.rs := by
  cases e with
  | line s =>
    have := Leads.result cfg.fuel ω (scoped_entry cfg p.rs h (entryText s)) 0
    unfold procStepL
    show Scoped (procLine p.err ((runtimeEvalT cfg p.rs (entryText s)).live cfg.fuel ω 0)).1.1.rs
    generalize (runtimeEvalT cfg p.rs (entryText s)).live cfg.fuel ω 0 = l at *
    obtain ⟨c, lg, rs, r⟩ := l
    unfold procLine
    cases r with
    | ok => exact this
    | quit => exact this
    | fail f => cases f <;> exact this
  | interrupted => exact h
  | eof => exact scoped_println h _ _
  | otherError => exact scoped_println (p := ⟨p.rs, p.err ++ [.logged]⟩) h _ _

theorem unset_tick {x : Str} {c : Expr} (hc : IsLiteral c) {s : Str} (hs : Spells (entryText s) [.assign (.ident x) c])
    (cfg : Cfg) (ω : Live) (p : Proc) (h : Scoped p.rs) :
    ∃ q, procStepL cfg ω p (.line s) = ((q, .running), []) ∧ ProcBut x p q := by
  obtain ⟨vs, hi⟩ := insert_ok p.rs.sem.vars x () h.1
  obtain ⟨v, he, hck⟩ : ∃ v, evalExprT cfg p.rs.ev c = E.of (.ok v) ∧ analyzeExpr vs c = .ok () := by
    cases c with
    | int i => exact ⟨_, by rw [evalExprT], by rw [analyzeExpr]⟩
    | bool i => exact ⟨_, by rw [evalExprT], by rw [analyzeExpr]⟩
    | str i => exact ⟨_, by rw [evalExprT], by rw [analyzeExpr]⟩
    | _ => exact hc.elim
  obtain ⟨w, hw⟩ := insert_ok p.rs.ev.vars x v h.2
  have e : runtimeEvalT cfg p.rs (entryText s) = .ret (⟨{ p.rs.sem with vars := vs }, { p.rs.ev with vars := w }⟩, .ok) := by
    unfold runtimeEvalT
    rw [spells_iff.1 hs]
    dsimp only
    rw [check_single, analyzeStmt]
    unfold AState.declare
    rw [hi, then_of]
    dsimp only
    rw [hck, eval_single, evalStmtT]
    unfold evalAssignT
    rw [he, into_of]
    dsimp only
    rw [hw, into_of]
    rfl
  refine ⟨⟨⟨{ p.rs.sem with vars := vs }, { p.rs.ev with vars := w }⟩, p.err⟩, ?_, rfl, rfl, but_insert hi, rfl, rfl, but_insert hw⟩
  show procLine p.err ((runtimeEvalT cfg p.rs (entryText s)).live cfg.fuel ω 0) = _
  rw [e]
  simp [T.live, procLine, warningLines]

theorem meets_meets (p : Proc) (d d' : Fs → Fs) : (p.meets d).meets d' = p.meets (d' ∘ d) := by
  unfold Proc.meets
  simp [Option.map_map]

theorem unset_run {x : Str} {c : Expr} (hc : IsLiteral c) {s : Str} (hs : Spells (entryText s) [.assign (.ident x) c])
    (cfg : Cfg) (d d' : Fs → Fs) (ω ω' : Live) (e : ReplEvent) (he : NotMentioned x e) (ts : List LiveTick) (hts : ∀ t ∈ ts, NotMentioned x t.event) :
    ∀ (before : List LiveTick) (p : Proc), Scoped p.rs →
    StepBut x (procRunL cfg p (before ++ ⟨d' ∘ d, ω', e⟩ :: ts)) (procRunL cfg p (before ++ ⟨d, ω, .line s⟩ :: ⟨d', ω', e⟩ :: ts))
  | [], p, h => by
    obtain ⟨q, h1, h2⟩ := unset_tick hc hs cfg ω (p.meets d) h
    have e1 : procRunL cfg p ([] ++ ⟨d' ∘ d, ω', e⟩ :: ts) = procRunL cfg (p.meets d) (⟨d', ω', e⟩ :: ts) := by
      rw [List.nil_append, procRunL, procRunL, meets_meets]
    have e2 : procRunL cfg p ([] ++ ⟨d, ω, .line s⟩ :: ⟨d', ω', e⟩ :: ts) = procRunL cfg q (⟨d', ω', e⟩ :: ts) := by
      rw [List.nil_append, procRunL, h1]
      simp
    rw [e1, e2]
    refine run_but cfg _ (fun t ht => ?_) _ _ h2
    rcases List.mem_cons.1 ht with rfl | ht
    · exact he
    · exact hts t ht
  | t :: before, p, h => by
    rw [List.cons_append, List.cons_append, procRunL, procRunL]
    have hk := scoped_step cfg t.world (p.meets t.drift) h t.event
    generalize procStepL cfg t.world (p.meets t.drift) t.event = a at *
    obtain ⟨⟨a, k⟩, la⟩ := a
    cases k
    · have := unset_run hc hs cfg d d' ω ω' e he ts hts before a hk
      exact ⟨by dsimp only; rw [this.log], this.status, this.proc⟩
    all_goals exact ⟨rfl, rfl, ProcBut.refl _ _⟩

/-- **C107** In a session, an entry that sets a variable to a literal may be left out if nothing later mentions the variable:
everything the session prints, its end, and all requests are the same, in any world that changes between and during the
entries. Entries that do not parse count as mentioning nothing. -/
theorem C107_session (x : Str) (c : Expr) (hc : IsLiteral c) (s : Str) (hs : Spells (entryText s) [.assign (.ident x) c])
    (cfg : Cfg) (room : Option Nat) (editor saved : Bool) (d d' : Fs → Fs) (ω ω' : Live)
    (before after : List LiveTick) (e : ReplEvent) (he : NotMentioned x e) (ha : ∀ t ∈ after, NotMentioned x t.event) :
    replMainL cfg room editor saved (before ++ ⟨d' ∘ d, ω', e⟩ :: after) =
      replMainL cfg room editor saved (before ++ ⟨d, ω, .line s⟩ :: ⟨d', ω', e⟩ :: after) := by
  cases editor
  · rfl
  · have hsc : Scoped (procStart cfg room).1.rs := scoped_start cfg room
    simp only [replMainL, if_true]
    generalize procStart cfg room = st at hsc
    obtain ⟨p, k⟩ := st
    cases k
    · dsimp only
      have h := unset_run hc hs { cfg with interactive := true } d d' ω ω' e he after ha before p hsc
      generalize procRunL { cfg with interactive := true } p (before ++ ⟨d' ∘ d, ω', e⟩ :: after) = a at *
      generalize procRunL { cfg with interactive := true } p (before ++ ⟨d, ω, .line s⟩ :: ⟨d', ω', e⟩ :: after) = b at *
      obtain ⟨⟨a, k⟩, la⟩ := a
      obtain ⟨⟨b, k'⟩, lb⟩ := b
      obtain ⟨h1, h2, h3⟩ := h
      dsimp only at h1 h2 h3
      subst h1 h2
      dsimp only
      have : procEnd saved (a, k') = procEnd saved (b, k') := by
        cases k' <;> simp only [procEnd, h3.err, h3.state.sink]
      rw [this]
    all_goals rfl

/-! ### where that does not hold -/

/-- **C107** Not for an assignment that may fail. -/
theorem C107_failing : ¬ SameEffect [.assign (.ident ['x']) (.bin .div (.int 1) (.int 0)), .assign (.ident ['z']) (.int 1)]
    [.assign (.ident ['z']) (.int 1), .assign (.ident ['x']) (.bin .div (.int 1) (.int 0))] := by
  intro h
  have := numberAt_same h ['z']
  revert this
  decide +kernel

/-- **C107** Nor for a program that assigns to a variable in `c`. -/
theorem C107_source : ¬ StandsIn
    [.assign (.ident ['y']) (.int 1), .assign (.ident ['x']) (.ident ['y']), .assign (.ident ['y']) (.int 2)]
    [.assign (.ident ['y']) (.int 1), .assign (.ident ['y']) (.int 2), .assign (.ident ['x']) (.ident ['y'])] := by
  intro h
  have h1 := h.evaluated demo _ (usual_new demo none) 10 (Live.steady demo.host) 0 (by
    intro f hf
    have : okRes ((evalStmtsT demo [.assign (.ident ['y']) (.int 1), .assign (.ident ['x']) (.ident ['y']), .assign (.ident ['y']) (.int 2)]
      (RState.new demo none).ev).live 10 (Live.steady demo.host) 0).result.2 = true := by decide +kernel
    rw [hf] at this
    cases this)
  have : numberAt [.assign (.ident ['y']) (.int 1), .assign (.ident ['y']) (.int 2), .assign (.ident ['x']) (.ident ['y'])] ['x'] =
      numberAt [.assign (.ident ['y']) (.int 1), .assign (.ident ['x']) (.ident ['y']), .assign (.ident ['y']) (.int 2)] ['x'] := by
    unfold numberAt
    rw [h1]
  revert this
  decide +kernel

/-- **C107** Nor past a `quit;`, which ends the session before the assignment. -/
theorem C107_quit : ¬ StandsIn [.assign (.ident ['x']) (.int 1), .quit] [.quit, .assign (.ident ['x']) (.int 1)] := by
  intro h
  have h1 := h.evaluated demo _ (usual_new demo none) 10 (Live.steady demo.host) 0 (by
    intro f hf
    have : (match ((evalStmtsT demo [.assign (.ident ['x']) (.int 1), .quit]
      (RState.new demo none).ev).live 10 (Live.steady demo.host) 0).result.2 with | .quit => true | _ => false) = true := by decide +kernel
    rw [hf] at this
    cases this)
  have : numberAt [.quit, .assign (.ident ['x']) (.int 1)] ['x'] = numberAt [.assign (.ident ['x']) (.int 1), .quit] ['x'] := by
    unfold numberAt
    rw [h1]
  revert this
  decide +kernel

/-! ### the hypotheses can be met -/

/-- an assignment that is made after a loop -/
example : StandsIn
    [.assign (.ident ['x']) (.bin .plus (.ident ['x']) (.ident ['a'])), .for (.ident ['k']) (.call (.ident s!' "keys") [])
      [.print (.ident ['k']), .assign (.ident ['n']) (.bin .plus (.ident ['n']) (.int 1))]]
    [.for (.ident ['k']) (.call (.ident s!' "keys") [])
      [.print (.ident ['k']), .assign (.ident ['n']) (.bin .plus (.ident ['n']) (.int 1))],
      .assign (.ident ['x']) (.bin .plus (.ident ['x']) (.ident ['a']))] :=
  C107_later ['x'] _ (by simp [Simple]) [_] (by simp [UnawareAll, Unaware, Expr.uses, usesL])
    (by simp [UntouchedAll, Untouched, root, Expr.uses]) ⟨trivial, trivial⟩ (by simp [NoQuits, NoQuit])

/-- a value that is not read before the next one -/
example : StandsIn
    [.assign (.ident ['x']) (.int 0), .for (.ident ['k']) (.call (.ident s!' "search") []) [.print (.ident ['k'])],
      .assign (.ident ['x']) (.call (.ident s!' "len") [.ident ['y']])]
    [.for (.ident ['k']) (.call (.ident s!' "search") []) [.print (.ident ['k'])],
      .assign (.ident ['x']) (.call (.ident s!' "len") [.ident ['y']])] :=
  C107_dead ['x'] (.int 0) (.call (.ident s!' "len") [.ident ['y']]) trivial (by simp [Expr.uses, usesL])
    [.for (.ident ['k']) (.call (.ident s!' "search") []) [.print (.ident ['k'])]] (by simp [UnawareAll, Unaware, Expr.uses, usesL])
    ⟨trivial, trivial⟩ (by simp [NoQuits, NoQuit])

set_option maxRecDepth 100000 in
/-- a script, and the same without the last assignment to a variable that it does not mention after that -/
theorem unread_spelled : ∃ q p,
    Spells s!' "x = 3; print x; x = 7; i = 0; while i < 3 { i = i + 1; print i; }" (q ++ .assign (.ident ['x']) (.int 7) :: p) ∧
    Spells s!' "x = 3; print x; i = 0; while i < 3 { i = i + 1; print i; }" (q ++ p) ∧ UnawareAll ['x'] p := by
  refine ⟨[.assign (.ident ['x']) (.int 3), .print (.ident ['x'])], [.assign (.ident ['i']) (.int 0), .while (.bin .lt (.ident ['i']) (.int 3))
    [.assign (.ident ['i']) (.bin .plus (.ident ['i']) (.int 1)), .print (.ident ['i'])]],
    spells_iff.2 (by with_unfolding_all rfl), spells_iff.2 (by with_unfolding_all rfl), by simp [UnawareAll, Unaware, Expr.uses]⟩

example (cfg : Cfg) (ω : Live) :
    scriptMainL cfg none ω (some (encoded s!' "x = 3; print x; i = 0; while i < 3 { i = i + 1; print i; }")) =
      scriptMainL cfg none ω (some (encoded s!' "x = 3; print x; x = 7; i = 0; while i < 3 { i = i + 1; print i; }")) := by
  obtain ⟨q, p, h1, h2, h3⟩ := unread_spelled
  have e1 : stripComments s!' "x = 3; print x; x = 7; i = 0; while i < 3 { i = i + 1; print i; }" =
      s!' "x = 3; print x; x = 7; i = 0; while i < 3 { i = i + 1; print i; }" := by decide +kernel
  have e2 : stripComments s!' "x = 3; print x; i = 0; while i < 3 { i = i + 1; print i; }" =
      s!' "x = 3; print x; i = 0; while i < 3 { i = i + 1; print i; }" := by decide +kernel
  exact C107_unused_literal ['x'] (.int 7) trivial q p h3 cfg none ω _ _ (by rw [e1]; exact h1) (by rw [e2]; exact h2)

/-- an entry that sets a variable, and then entries that do not mention it, or do not parse -/
example (cfg : Cfg) (d d' : Fs → Fs) (ω ω' : Live) (before : List LiveTick) :
    replMainL cfg none true true (before ++ ⟨d' ∘ d, ω', .line s!' "print 1"⟩ :: [⟨id, ω, .line s!' "print ("⟩, ⟨d, ω, .eof⟩]) =
      replMainL cfg none true true
        (before ++ ⟨d, ω, .line s!' "x = 7"⟩ :: ⟨d', ω', .line s!' "print 1"⟩ :: [⟨id, ω, .line s!' "print ("⟩, ⟨d, ω, .eof⟩]) := by
  have h1 : NotMentioned ['x'] (.line s!' "print 1") := by
    intro s hs p hp
    cases hs
    have e : parse (entryText s!' "print 1") = some [.print (.int 1)] := by with_unfolding_all rfl
    have := (spells_iff.1 hp).symm.trans e
    cases this
    simp [UnawareAll, Unaware, Expr.uses]
  have h2 : NotMentioned ['x'] (.line s!' "print (") := by
    intro s hs p hp
    cases hs
    have e : parse (entryText s!' "print (") = none := by with_unfolding_all rfl
    have := (spells_iff.1 hp).symm.trans e
    cases this
  refine C107_session ['x'] (.int 7) trivial _ (spells_iff.2 (by with_unfolding_all rfl)) cfg none true true d d' ω ω' before _ _ h1 ?_
  intro t ht
  simp only [List.mem_cons, List.not_mem_nil, or_false] at ht
  rcases ht with rfl | rfl
  · exact h2
  · intro s hs
    cases hs

/-- two states that differ in one variable, in an inner scope, and where it is not known at all -/
example (st : State) (s : Scope Value) (v : Value) :
    AlikeBut ['x'] { st with vars := [s, Scope.set (fun _ => none) ['y'] v] }
      { st with vars := [s.set ['x'] (.int 3), Scope.set (fun _ => none) ['y'] v] } :=
  ⟨rfl, rfl, .cons (fun y hy => set_other s _ hy) (ButFor.refl _)⟩

end Btrd
