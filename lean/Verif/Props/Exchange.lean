/-
C101: expressions can be exchanged for others that mean the same.
-/
import Verif.Lemmas.Exchange
import Verif.Props.Rename
import Verif.Props.Shape

namespace Btrd
open Spec

/-! ### programs -/

theorem fit_same {e e' : Expr} (h : SameMeaning e e') : Fit True e e' :=
  ⟨fun vs _ => h.checked vs, fun cfg st hu fuel ω t _ => h.evaluated cfg st hu fuel ω t⟩

theorem fit_serves {e e' : Expr} (h : ServesFor e e') : Fit False e e' :=
  ⟨fun vs hc => by
    rcases hc with hc | ⟨u, hu⟩
    · exact hc.elim
    · rw [hu]; exact h.checked vs hu,
   fun cfg st hu fuel ω t hc => by
    rcases hc with hc | ⟨v, hv⟩
    · exact hc.elim
    · exact h.evaluated cfg st hu fuel ω t v hv⟩

section
variable {S : Prop} {R : Expr → Expr → Prop} (hR : ∀ e e', R e e' → Fit S e e')

include hR in
theorem entry_exchanged (cfg : Cfg) (rs : RState) (hu : Usual rs.ev) {t t' : Str} {p p' : List Stmt} (ht : Spells t p) (ht' : Spells t' p')
    (h : ExchangedProg R p p') :
    Along (fun r : RState × EvalResult => S ∨ ∀ f, r.2 ≠ .fail f) (runtimeEvalT cfg rs t) (runtimeEvalT cfg rs t') := by
  unfold runtimeEvalT
  rw [spells_iff.1 ht, spells_iff.1 ht']
  dsimp only
  have ha := prog_checked hR h rs.sem
  generalize analyzeStmts p rs.sem = a at ha
  generalize analyzeStmts p' rs.sem = b at ha
  obtain ⟨a, r⟩ := a
  cases r with
  | ok _ =>
    rw [ha (.inr ⟨_, rfl⟩)]
    refine Along.bind (prog_exchanged hR cfg h (parse_literals (spells_iff.1 ht)) rs.ev hu) (fun _ => Along.refl _) (fun a fuel ω n hq => ?_)
    obtain ⟨st, r⟩ := a
    rcases hq with hq | hq
    · exact .inl hq
    · refine .inr fun f hf => ?_
      dsimp only at hf
      subst hf
      exact hq f rfl
  | error e =>
    intro fuel ω n hq
    rcases hq with hq | hq
    · rw [ha (.inl hq)]
    · exact absurd rfl (hq e)

end

/-- **C101** An expression may be exchanged for one that means the same, anywhere and any number of times in a program:
in any interpreter and any world that changes meanwhile, both programs make the same requests at the same moments with
the same warnings, and end with the same state, output and result, be it a success or an error. -/
theorem C101_entry (cfg : Cfg) (rs : RState) (hu : Usual rs.ev) (t t' : Str) (p p' : List Stmt) (ht : Spells t p) (ht' : Spells t' p')
    (h : ExchangedProg SameMeaning p p') (fuel : Nat) (ω : Live) (n : Nat) :
    (runtimeEvalT cfg rs t').live fuel ω n = (runtimeEvalT cfg rs t).live fuel ω n :=
  entry_exchanged (fun _ _ h => fit_same h) cfg rs hu ht ht' h fuel ω n (.inl trivial)

/-- **C101** For an expression that serves for another one it is enough to look at the runs without an error: if a program
ends without one, then the program with the other expressions does all the same. -/
theorem C101_entry_serves (cfg : Cfg) (rs : RState) (hu : Usual rs.ev) (t t' : Str) (p p' : List Stmt) (ht : Spells t p) (ht' : Spells t' p')
    (h : ExchangedProg ServesFor p p') (fuel : Nat) (ω : Live) (n : Nat)
    (hok : ∀ f, ((runtimeEvalT cfg rs t).live fuel ω n).result.2 ≠ .fail f) :
    (runtimeEvalT cfg rs t').live fuel ω n = (runtimeEvalT cfg rs t).live fuel ω n :=
  entry_exchanged (fun _ _ h => fit_serves h) cfg rs hu ht ht' h fuel ω n (.inr hok)

/-- **C101** The states of sessions are such, whatever is entered and whatever the world does. -/
theorem C101_usual (cfg : Cfg) (room : Option Nat) (ts : List LiveTick) : Usual (afterwards cfg room ts) :=
  lasting_session good_lasting cfg room ts

theorem usual_new (cfg : Cfg) (room : Option Nat) : Usual (RState.new cfg room).ev := lasting_initial good_lasting

theorem decoded (s : Str) : decodeUtf8 (encoded s) = some s := (C82_utf8 _ s).2 rfl

/-- **C101** The same for scripts: output, standard error, exit status, requests. -/
theorem C101_script (cfg : Cfg) (room : Option Nat) (ω : Live) (s s' : Str) (p p' : List Stmt)
    (hs : Spells (stripComments s) p) (hs' : Spells (stripComments s') p') (h : ExchangedProg SameMeaning p p') :
    scriptMainL cfg room ω (some (encoded s')) = scriptMainL cfg room ω (some (encoded s)) := by
  simp only [scriptMainL, decoded]
  rw [C101_entry _ _ (usual_new _ _) _ _ p p' hs hs' h]

/-- **C101** A script that succeeds does the same with expressions that serve for its own. -/
theorem C101_script_serves (cfg : Cfg) (room : Option Nat) (ω : Live) (s s' : Str) (p p' : List Stmt)
    (hs : Spells (stripComments s) p) (hs' : Spells (stripComments s') p') (h : ExchangedProg ServesFor p p')
    (hok : (scriptMainL cfg room ω (some (encoded s))).1.exit = .success) :
    scriptMainL cfg room ω (some (encoded s')) = scriptMainL cfg room ω (some (encoded s)) := by
  simp only [scriptMainL, decoded] at hok ⊢
  rw [C101_entry_serves _ _ (usual_new _ _) _ _ p p' hs hs' h]
  intro f hf
  rw [hf] at hok
  cases f <;> simp [scriptExit] at hok

theorem step_exchanged (cfg : Cfg) (ω : Live) (p : Proc) (hu : Usual p.rs.ev) {e e' : ReplEvent}
    (he : ExchangedEvent SameMeaning entryText e e') : procStepL cfg ω p e' = procStepL cfg ω p e := by
  cases he with
  | same e => rfl
  | program hs hs' h =>
    exact congrArg (procLine p.err) (C101_entry cfg p.rs hu _ _ _ _ hs hs' h cfg.fuel ω 0)

theorem run_exchanged (cfg : Cfg) : ∀ {ts ts' : List LiveTick}, List.Forall₂ (ExchangedTick SameMeaning entryText) ts ts' →
    ∀ p, Usual p.rs.ev → procRunL cfg p ts' = procRunL cfg p ts
  | _, _, .nil, p, _ => rfl
  | t :: ts, t' :: ts', .cons ht hts, p, hu => by
    have hu : AllVars Good (p.meets t.drift).rs.ev.vars := hu
    have hu' := lasting_step good_lasting (fun _ h => h) cfg t.world (p.meets t.drift) t.event hu
    rw [procRunL, procRunL, ht.drift, ht.world, step_exchanged cfg t.world _ hu ht.event]
    generalize procStepL cfg t.world (p.meets t.drift) t.event = a at hu'
    obtain ⟨⟨a, x⟩, la⟩ := a
    cases x
    · dsimp only
      rw [run_exchanged cfg hts a hu']
    all_goals rfl

/-- **C101** The same for sessions, entry by entry: output, standard error, exit status, requests and warnings. -/
theorem C101_session (cfg : Cfg) (room : Option Nat) (editor saved : Bool) (ts ts' : List LiveTick)
    (h : List.Forall₂ (ExchangedTick SameMeaning entryText) ts ts') :
    replMainL cfg room editor saved ts' = replMainL cfg room editor saved ts := by
  cases editor
  · rfl
  · have hu : Usual (procStart cfg room).1.rs.ev := C101_usual cfg room []
    simp only [replMainL, if_true]
    generalize procStart cfg room = st at hu
    obtain ⟨p, x⟩ := st
    cases x
    · dsimp only
      rw [run_exchanged _ h _ hu]
    all_goals rfl

/-! ### what means the same -/

theorem means_same {e e' : Expr} (hc : ∀ vs, analyzeExpr vs e' = analyzeExpr vs e)
    (he : ∀ cfg st, evalExprT cfg st e' = evalExprT cfg st e) : SameMeaning e e' :=
  ⟨hc, fun cfg st _ fuel ω t => by rw [he]⟩

theorem same_symm {e e' : Expr} (h : SameMeaning e e') : SameMeaning e' e :=
  ⟨fun vs => (h.checked vs).symm, fun cfg st hu fuel ω t => (h.evaluated cfg st hu fuel ω t).symm⟩

/-- **C101** Parentheses. -/
theorem C101_paren (e : Expr) : SameMeaning (.paren e) e :=
  means_same (fun vs => by rw [analyzeExpr]) (fun cfg st => by rw [evalExprT])

theorem bind_of {α β : Type} (a : α) (f : α → E β) : (E.of (.ok a) >>= f) = f a := rfl

theorem unop_bind {α : Type} (b : Build) (op : UnOp) (x : E α) (f : α → E Value) :
    unopT b op (x >>= f) = x >>= fun a => unopT b op (f a) := ebind_assoc x f _

theorem not_bool (b : Build) (c : Bool) : unopT b .not (E.of (.ok (.bool c))) = E.of (.ok (.bool (!c))) := rfl

theorem bind_congr {α β : Type} (x : E α) {f g : α → E β} (h : ∀ a, f a = g a) : (x >>= f) = (x >>= g) := by
  rw [funext h]

/-- **C101** `a != b` and `!(a == b)`. -/
theorem C101_ne (a b : Expr) : SameMeaning (.bin .ne a b) (.un .not (.paren (.bin .eq a b))) :=
  means_same (fun vs => by simp only [analyzeExpr]) (fun cfg st => by
    simp only [evalExprT, binopT, unop_bind]
    rfl)

theorem intOp_not (b : Build) (f g : Int → Int → Bool) (hfg : ∀ i j, g i j = !f i j) (l r : E Value) :
    unopT b .not (intOpT (fun i j => .ok (.bool (f i j))) l r) = intOpT (fun i j => .ok (.bool (g i j))) l r := by
  simp only [intOpT, unop_bind, not_bool, hfg]

/-- **C101** Each comparison is the negation of its opposite. -/
theorem C101_compare (a b : Expr) :
    SameMeaning (.bin .ge a b) (.un .not (.paren (.bin .lt a b))) ∧
    SameMeaning (.bin .gt a b) (.un .not (.paren (.bin .le a b))) ∧
    SameMeaning (.bin .le a b) (.un .not (.paren (.bin .gt a b))) ∧
    SameMeaning (.bin .lt a b) (.un .not (.paren (.bin .ge a b))) := by
  refine ⟨?_, ?_, ?_, ?_⟩ <;> refine means_same (fun vs => by simp only [analyzeExpr]) (fun cfg st => ?_) <;>
    simp only [evalExprT, binopT] <;> refine intOp_not _ _ _ (fun i j => ?_) _ _ <;> simp <;> grind

/-- an operand that has to be a boolean -/
def theBool (x : E Value) : E Bool := x >>= fun v => E.of v.asBoolean

theorem land_eq (l r : E Value) : binopT .land l r =
    theBool l >>= fun b => if b then theBool r >>= fun c => E.of (.ok (.bool c)) else E.of (.ok (.bool false)) := by
  simp only [binopT, theBool, ebind_assoc]
  refine bind_congr _ fun v => bind_congr _ fun b => ?_
  cases b <;> rfl

theorem lor_eq (l r : E Value) : binopT .lor l r =
    theBool l >>= fun b => if b then E.of (.ok (.bool true)) else theBool r >>= fun c => E.of (.ok (.bool c)) := by
  simp only [binopT, theBool, ebind_assoc]

theorem theBool_bind {α : Type} (x : E α) (f : α → E Value) : theBool (x >>= f) = x >>= fun a => theBool (f a) :=
  ebind_assoc x f _

theorem theBool_of (b : Bool) : theBool (E.of (.ok (.bool b))) = E.of (.ok b) := rfl

/-- **C101** `&&` and `||` may be grouped either way. -/
theorem C101_assoc (a b c : Expr) :
    SameMeaning (.bin .land (.bin .land a b) c) (.bin .land a (.paren (.bin .land b c))) ∧
    SameMeaning (.bin .lor (.bin .lor a b) c) (.bin .lor a (.paren (.bin .lor b c))) := by
  constructor
  · refine means_same (fun vs => ?_) (fun cfg st => ?_)
    · simp only [analyzeExpr]
      cases analyzeExpr vs a <;> rfl
    · simp only [evalExprT, land_eq, theBool_bind, ebind_assoc]
      refine bind_congr _ fun x => ?_
      cases x
      · rfl
      · simp only [if_true, theBool_bind, ebind_assoc, theBool_of, bind_of]
        refine bind_congr _ fun y => ?_
        cases y
        · rfl
        · simp only [if_true, theBool_bind, ebind_assoc, theBool_of, bind_of]
  · refine means_same (fun vs => ?_) (fun cfg st => ?_)
    · simp only [analyzeExpr]
      cases analyzeExpr vs a <;> rfl
    · simp only [evalExprT, lor_eq, theBool_bind, ebind_assoc]
      refine bind_congr _ fun x => ?_
      cases x
      · simp only [Bool.false_eq_true, if_false, theBool_bind, ebind_assoc, theBool_of, bind_of]
        refine bind_congr _ fun y => ?_
        cases y
        · simp only [Bool.false_eq_true, if_false, theBool_bind, ebind_assoc, theBool_of, bind_of]
        · rfl
      · rfl

/-! ### what serves -/

theorem same_serves {e e' : Expr} (h : SameMeaning e e') : ServesFor e e' :=
  ⟨fun vs hv => (h.checked vs).trans hv, fun cfg st hu fuel ω t _ _ => h.evaluated cfg st hu fuel ω t⟩

theorem serves {e e' : Expr} (hc : ∀ vs, analyzeExpr vs e = .ok () → analyzeExpr vs e' = .ok ())
    (he : ∀ cfg st, Sub False (evalExprT cfg st e) (evalExprT cfg st e')) : ServesFor e e' :=
  ⟨hc, fun cfg st _ fuel ω t v hv => he cfg st fuel ω t (.inr ⟨v, hv⟩)⟩

/-- a step that can only give back what it is given -/
theorem sub_step {α : Type} (x : E α) (g : α → R α) (hg : ∀ v w, g v = .ok w → w = v) :
    Sub False (x >>= fun v => E.of (g v)) x := by
  have : Sub False (x >>= fun v => E.of (g v)) (x >>= fun v => E.of (.ok v)) := Sub.bindSame _ fun v fuel ω t hc => by
    rcases hc with hc | ⟨w, hw⟩
    · exact hc.elim
    · have hw : g v = .ok w := hw
      rw [hw, hg v w hw]
  rwa [ebind_pure] at this

theorem asInteger_ok {v : Value} {i : Int} (h : v.asInteger = .ok i) : v = .int i := by
  cases v <;> simp_all [Value.asInteger]

theorem asBoolean_ok {v : Value} {b : Bool} (h : v.asBoolean = .ok b) : v = .bool b := by
  cases v <;> simp_all [Value.asBoolean]

theorem sub_bool (x : E Value) : Sub False (theBool x >>= fun b => E.of (.ok (.bool b))) x := by
  have := sub_step x (fun v => v.asBoolean >>= fun b => .ok (.bool b)) (fun v w h => by
    obtain ⟨b, h1, h2⟩ := bind_ok h
    rw [asBoolean_ok h1]
    exact (Except.ok.inj h2).symm)
  refine cast (congrArg (fun y => Sub False y x) ?_) this
  simp only [theBool, ebind_assoc]
  refine bind_congr _ fun v => ?_
  cases v.asBoolean <;> rfl

theorem sub_int (x : E Value) (g : Int → R Value) (hg : ∀ i w, g i = .ok w → w = .int i) :
    Sub False (x >>= fun v => E.of v.asInteger >>= fun i => E.of (g i)) x := by
  have := sub_step x (fun v => v.asInteger >>= g) (fun v w h => by
    obtain ⟨i, h1, h2⟩ := bind_ok h
    rw [asInteger_ok h1, hg i w h2])
  refine cast (congrArg (fun y => Sub False y x) ?_) this
  refine bind_congr _ fun v => ?_
  cases v.asInteger <;> rfl

theorem checked_one {e : Err} {i j : Int} (hij : j = i) {w : Value} (h : checkedI128 e j = .ok w) : w = .int i := by
  subst hij
  unfold checkedI128 at h
  split at h
  · exact (Except.ok.inj h).symm
  · cases h

theorem checked_left {a b : Expr} {op : BinOp} (vs : Vars Unit) (h : analyzeExpr vs (.bin op a b) = .ok ()) :
    analyzeExpr vs a = .ok () := by
  rw [analyzeExpr] at h
  cases ha : analyzeExpr vs a with
  | ok _ => rfl
  | error e => rw [ha] at h; cases h

/-- **C101** Where an integer is multiplied or divided by one, or nothing is taken away from it, or it is shifted to the
right by nothing, it may be left alone. (Not so for `a + 0`: see `C101_not_plus_zero`.) -/
theorem C101_units (a : Expr) :
    ServesFor (.bin .mul a (.int 1)) a ∧ ServesFor (.bin .div a (.int 1)) a ∧ ServesFor (.bin .minus a (.int 0)) a ∧
    ServesFor (.bin .shr a (.int 0)) a := by
  refine ⟨serves checked_left fun cfg st => ?_, serves checked_left fun cfg st => ?_,
    serves checked_left fun cfg st => ?_, serves checked_left fun cfg st => ?_⟩
  · rw [evalExprT, evalExprT]
    exact sub_int _ (fun i => checkedI128 _ (i * 1)) fun i w h => checked_one (Int.mul_one i) h
  · rw [evalExprT, evalExprT]
    refine sub_int _ (fun i => divI128 i 1) fun i w h => ?_
    unfold divI128 at h
    rw [if_neg (by decide)] at h
    exact checked_one (Int.tdiv_one i) h
  · rw [evalExprT, evalExprT]
    exact sub_int _ (fun i => checkedI128 _ (i - 0)) fun i w h => checked_one (Int.sub_zero i) h
  · rw [evalExprT, evalExprT]
    refine sub_int _ (fun i => shrI128 i 0) fun i w h => ?_
    have h : (Except.ok (Value.int (i / 2 ^ 0)) : R Value) = .ok w := h
    simpa using (Except.ok.inj h).symm

/-- **C101** `true` and `false` as an operand of `&&` and `||` may be left out; and where they settle the matter, so may
the other operand. -/
theorem C101_literals (a : Expr) :
    ServesFor (.bin .land a (.bool true)) a ∧ ServesFor (.bin .land (.bool true) a) a ∧
    ServesFor (.bin .lor a (.bool false)) a ∧ ServesFor (.bin .lor (.bool false) a) a ∧
    ServesFor (.bin .land (.bool false) a) (.bool false) ∧ ServesFor (.bin .lor (.bool true) a) (.bool true) := by
  have hr : ∀ (op : BinOp) b vs, analyzeExpr vs (.bin op (.bool b) a) = .ok () → analyzeExpr vs a = .ok () :=
    fun op b vs h => by simpa [analyzeExpr] using h
  refine ⟨serves checked_left fun cfg st => ?_, serves (hr _ _) fun cfg st => ?_, serves checked_left fun cfg st => ?_,
    serves (hr _ _) fun cfg st => ?_, serves (fun vs _ => by rw [analyzeExpr]) fun cfg st => ?_,
    serves (fun vs _ => by rw [analyzeExpr]) fun cfg st => ?_⟩ <;> simp only [evalExprT, land_eq, lor_eq]
  · refine cast (congrArg (fun y => Sub False y _) ?_) (sub_bool (evalExprT cfg st a))
    refine bind_congr _ fun b => ?_
    cases b <;> rfl
  · exact sub_bool _
  · refine cast (congrArg (fun y => Sub False y _) ?_) (sub_bool (evalExprT cfg st a))
    refine bind_congr _ fun b => ?_
    cases b <;> rfl
  · exact sub_bool _
  · exact Sub.refl _
  · exact Sub.refl _

/-- what `!` gives for a boolean, it gives also where both are accepted -/
theorem sub_not (b : Build) (x : E Value) :
    Sub False (theBool x >>= fun c => E.of (.ok (!c))) (theBool (unopT b .not x)) := by
  have : theBool (unopT b .not x) = x >>= fun v => theBool (unopT b .not (E.of (.ok v))) := by
    simp only [theBool, unopT, ebind_assoc, bind_of]
  rw [this, theBool, ebind_assoc]
  refine Sub.bindSame _ fun v fuel ω t hc => ?_
  rcases hc with hc | ⟨w, hw⟩
  · exact hc.elim
  · cases v <;> first | rfl | cases hw

/-- **C101** De Morgan: `!(a && b)` may be replaced by `!a || !b`, and `!(a || b)` by `!a && !b`. (Not the other way
round: `!` accepts integers too.) -/
theorem C101_de_morgan (a b : Expr) :
    ServesFor (.un .not (.paren (.bin .land a b))) (.bin .lor (.un .not a) (.un .not b)) ∧
    ServesFor (.un .not (.paren (.bin .lor a b))) (.bin .land (.un .not a) (.un .not b)) := by
  refine ⟨serves (fun vs h => by simpa [analyzeExpr] using h) fun cfg st => ?_,
    serves (fun vs h => by simpa [analyzeExpr] using h) fun cfg st => ?_⟩
  · simp only [evalExprT, land_eq, lor_eq, unop_bind]
    refine cast (congrArg (fun y => Sub False y _) ?_) ((sub_not cfg.build (evalExprT cfg st a)).bind
      (f := fun c => if c then E.of (.ok (.bool true)) else
        (theBool (evalExprT cfg st b) >>= fun c => E.of (.ok (!c))) >>= fun c => E.of (.ok (.bool c)))
      fun c => ?_)
    · rw [ebind_assoc]
      refine bind_congr _ fun c => ?_
      cases c
      · rfl
      · simp only [if_true, unop_bind, ebind_assoc]
        rfl
    · cases c
      · exact (sub_not cfg.build (evalExprT cfg st b)).bind fun _ => Sub.refl _
      · exact Sub.refl _
  · simp only [evalExprT, land_eq, lor_eq, unop_bind]
    refine cast (congrArg (fun y => Sub False y _) ?_) ((sub_not cfg.build (evalExprT cfg st a)).bind
      (f := fun c => if c then
        (theBool (evalExprT cfg st b) >>= fun c => E.of (.ok (!c))) >>= fun c => E.of (.ok (.bool c)) else E.of (.ok (.bool false)))
      fun c => ?_)
    · rw [ebind_assoc]
      refine bind_congr _ fun c => ?_
      cases c
      · simp only [Bool.false_eq_true, if_false, unop_bind, ebind_assoc]
        rfl
      · rfl
    · cases c
      · exact Sub.refl _
      · exact (sub_not cfg.build (evalExprT cfg st b)).bind fun _ => Sub.refl _

/-- what serves because of what integers are -/
theorem serves_known {e e' : Expr} (hc : ∀ vs, analyzeExpr vs e = .ok () → analyzeExpr vs e' = .ok ())
    (he : ∀ cfg st, Usual st → Sub False (evalExprT cfg st e) (evalExprT cfg st e')) : ServesFor e e' :=
  ⟨hc, fun cfg st hu fuel ω t v hv => he cfg st hu fuel ω t (.inr ⟨v, hv⟩)⟩

/-- the values of an expression in a usual state -/
theorem usual_vals (cfg : Cfg) {st : State} (hu : Usual st) (a : Expr) (ha : ∀ i ∈ a.literals, Spec.Fits i) :
    Vals Good (evalExprT cfg st a) := vals_expr good_lasting cfg st hu a ha

/-- two computations that do the same with the values there can be -/
theorem sub_known {α β : Type} {S : Prop} {Q : α → Prop} {x : E α} (hx : Vals Q x) {f g : α → E β} (h : ∀ v, Q v → Sub S (f v) (g v)) :
    Sub S (x >>= f) (x >>= g) := by
  refine Along.bindKnown (α := R α) (β := R β) (P := Counts S) hx (fun _ _ _ _ => rfl) (fun a ha => ?_) (fun a fuel ω t hq => ?_)
  · cases a with
    | ok a => exact h a (ha a rfl)
    | error e => exact Along.refl (α := R β) _
  · cases a with
    | ok a => exact .inr ⟨a, rfl⟩
    | error e =>
      rcases hq with hq | ⟨b, hb⟩
      · exact .inl hq
      · cases hb

theorem sub_result {S : Prop} {α : Type} {r r' : R α} (h : Counts S r → r' = r) : Sub S (E.of r) (E.of r') := fun _ _ _ hc => by
  rw [h hc]

/-- steps on an integer, where the results agree for integers that fit -/
theorem sub_ints {S : Prop} {x : E Value} (hx : Vals Good x) (f g : Int → R Value)
    (h : ∀ i, Spec.Fits i → Counts S (f i) → g i = f i) :
    Sub S (x >>= fun v => E.of v.asInteger >>= fun i => E.of (f i)) (x >>= fun v => E.of v.asInteger >>= fun i => E.of (g i)) := by
  refine sub_known hx fun v hv => ?_
  cases v
  case int i => exact sub_result (h i (good_int.1 hv))
  all_goals exact Sub.refl _

theorem sub_intKnown {x : E Value} (hx : Vals Good x) (g : Int → R Value) (hg : ∀ i w, Spec.Fits i → g i = .ok w → w = .int i) :
    Sub False (x >>= fun v => E.of v.asInteger >>= fun i => E.of (g i)) x := by
  have h1 := sub_ints (S := False) hx g (fun i => .ok (.int i)) (fun i hi hc => by
    rcases hc with hc | ⟨w, hw⟩
    · exact hc.elim
    · rw [hw, hg i w hi hw])
  have h2 := sub_int x (fun i => .ok (.int i)) (fun i w h => (Except.ok.inj h).symm)
  intro fuel ω t hc
  have h3 := h1 fuel ω t hc
  rw [← h3] at hc ⊢
  exact h2 fuel ω t hc

theorem intOp_literal (f : Int → Int → R Value) (x : E Value) (n : Int) :
    intOpT f x (E.of (.ok (.int n))) = x >>= fun v => E.of v.asInteger >>= fun i => E.of (f i n) := rfl

theorem un_int (b : Build) (x : E Value) : unopT b .bitNot x =
    x >>= fun v => E.of v.asInteger >>= fun i => E.of (.ok (.int (~~~(BitVec.ofInt 128 i)).toInt)) := by
  refine bind_congr _ fun v => ?_
  cases v <;> rfl

theorem un_minus (b : Build) (x : E Value) : unopT b .minus x =
    x >>= fun v => E.of v.asInteger >>= fun i => E.of (negI128 b i >>= fun n => .ok (.int n)) := by
  refine bind_congr _ fun v => ?_
  cases v <;> rfl

theorem toInt_of_fits {i : Int} (h : Spec.Fits i) : (BitVec.ofInt 128 i).toInt = i := by
  have := wrapI128_of_fits h
  rw [BitVec.toInt_ofInt]
  exact this

theorem bitNot_value {i : Int} (h : Spec.Fits i) : (~~~(BitVec.ofInt 128 i)).toInt = -1 - i := by
  have h1 := toInt_of_fits h
  unfold Spec.Fits at h
  have h2 : (BitVec.ofInt 128 i).toNat < 2 ^ 128 := (BitVec.ofInt 128 i).isLt
  rw [BitVec.toInt_eq_toNat_bmod, Int.bmod_def] at h1
  rw [BitVec.toInt_not, Int.bmod_def]
  split at h1 <;> split <;> omega

/-- **C101** Where nothing is added to an integer bit by bit, or it is shifted to the left by nothing, or inverted or
negated twice, it may be left alone. -/
theorem C101_bits (a : Expr) (ha : ∀ i ∈ a.literals, Spec.Fits i) :
    ServesFor (.bin .bor a (.int 0)) a ∧ ServesFor (.bin .bxor a (.int 0)) a ∧ ServesFor (.bin .shl a (.int 0)) a ∧
    ServesFor (.un .bitNot (.un .bitNot a)) a ∧ ServesFor (.un .minus (.un .minus a)) a := by
  have hun : ∀ op vs, analyzeExpr vs (.un op (.un op a)) = .ok () → analyzeExpr vs a = .ok () := fun op vs h => by
    rwa [analyzeExpr, analyzeExpr] at h
  refine ⟨serves_known checked_left fun cfg st hu => ?_, serves_known checked_left fun cfg st hu => ?_,
    serves_known checked_left fun cfg st hu => ?_, serves_known (hun _) fun cfg st hu => ?_,
    serves_known (hun _) fun cfg st hu => ?_⟩
  · rw [evalExprT, evalExprT]
    refine sub_intKnown (usual_vals cfg hu a ha) (fun i => bitI128 (· ||| ·) i 0) fun i w hi h => ?_
    rw [← Except.ok.inj h, show BitVec.ofInt 128 0 = 0#128 from rfl]
    dsimp only
    rw [BitVec.or_zero, toInt_of_fits hi]
  · rw [evalExprT, evalExprT]
    refine sub_intKnown (usual_vals cfg hu a ha) (fun i => bitI128 (· ^^^ ·) i 0) fun i w hi h => ?_
    rw [← Except.ok.inj h, show BitVec.ofInt 128 0 = 0#128 from rfl]
    dsimp only
    rw [BitVec.xor_zero, toInt_of_fits hi]
  · rw [evalExprT, evalExprT]
    refine sub_intKnown (usual_vals cfg hu a ha) (fun i => shlI128 i 0) fun i w hi h => ?_
    have h : shlI128 i ((0 : Nat) : Int) = .ok w := h
    rw [shlI128_small i 0 (by decide)] at h
    rw [← Except.ok.inj h]
    simp [wrapI128_of_fits hi]
  · rw [evalExprT, evalExprT, un_int, un_int]
    have := sub_intKnown (usual_vals cfg hu a ha)
      (fun i => .ok (.int (~~~(BitVec.ofInt 128 (~~~(BitVec.ofInt 128 i)).toInt)).toInt)) (fun i w hi h => by
        rw [← Except.ok.inj h, BitVec.ofInt_toInt, BitVec.not_not, toInt_of_fits hi])
    refine cast (congrArg (fun y => Sub False y _) ?_) this
    simp only [ebind_assoc]
    refine bind_congr _ fun v => ?_
    cases v <;> rfl
  · rw [evalExprT, evalExprT, un_minus, un_minus]
    have := sub_intKnown (usual_vals cfg hu a ha)
      (fun i => negI128 cfg.build i >>= fun n => negI128 cfg.build n >>= fun m => .ok (.int m)) (fun i w hi h => by
        obtain ⟨n, h1, h⟩ := bind_ok h
        obtain ⟨m, h2, h⟩ := bind_ok h
        rw [← Except.ok.inj h]
        unfold negI128 at h1 h2
        unfold Spec.Fits at hi
        unfold i128Min at h1 h2
        repeat' split at h1
        all_goals
          repeat' split at h2
        all_goals simp only [Except.ok.injEq, reduceCtorEq] at h1 h2
        all_goals first | exact h1.elim | exact h2.elim | (congr 1; omega))
    refine cast (congrArg (fun y => Sub False y _) ?_) this
    simp only [ebind_assoc]
    refine bind_congr _ fun v => ?_
    cases v
    case int i =>
      generalize negI128 cfg.build = neg
      show E.of (neg i >>= fun n => neg n >>= fun m => Except.ok (Value.int m)) =
        (E.of (neg i >>= fun m => Except.ok (Value.int m)) >>= fun v => E.of v.asInteger >>= fun i =>
          E.of (neg i >>= fun m => Except.ok (Value.int m)))
      cases neg i <;> rfl
    all_goals rfl

/-- **C101** `~a` and `-1 - a`. -/
theorem C101_not_minus (a : Expr) (ha : ∀ i ∈ a.literals, Spec.Fits i) :
    SameMeaning (.un .bitNot a) (.bin .minus (.un .minus (.int 1)) a) := by
  refine ⟨fun vs => by simp only [analyzeExpr], fun cfg st hu fuel ω t => ?_⟩
  have h := sub_ints (S := True) (usual_vals cfg hu a ha) (fun i => .ok (.int (~~~(BitVec.ofInt 128 i)).toInt))
    (fun i => checkedI128 (.overflow (-1) s!' "-" i) (-1 - i)) (fun i hi _ => by
      rw [bitNot_value hi, checkedI128_eq, if_pos]
      unfold Spec.Fits at *
      omega) fuel ω t (.inl trivial)
  rw [← un_int] at h
  rw [evalExprT, evalExprT, evalExprT, evalExprT]
  exact h

/-- **C101** `a * 2` may be replaced by `a << 1`, `0 - a` by `-a`. -/
theorem C101_double (a : Expr) (ha : ∀ i ∈ a.literals, Spec.Fits i) :
    ServesFor (.bin .mul a (.int 2)) (.bin .shl a (.int 1)) ∧ ServesFor (.bin .minus (.int 0) a) (.un .minus a) := by
  refine ⟨serves_known (fun vs h => by simpa [analyzeExpr] using h) fun cfg st hu => ?_,
    serves_known (fun vs h => by simpa [analyzeExpr] using h) fun cfg st hu => ?_⟩
  · rw [evalExprT, evalExprT, evalExprT, evalExprT]
    refine sub_ints (usual_vals cfg hu a ha) (fun i => checkedI128 (.overflow i s!' "*" 2) (i * 2)) (fun i => shlI128 i 1) fun i hi hc => ?_
    rw [checkedI128_eq] at hc ⊢
    rw [show shlI128 i 1 = _ from shlI128_small i 1 (by decide)]
    split
    · rename_i h
      rw [show i * 2 ^ 1 = i * 2 from rfl, wrapI128_of_fits h]
    · rename_i h
      rw [if_neg h] at hc
      rcases hc with hc | ⟨w, hw⟩
      · exact hc.elim
      · cases hw
  · rw [evalExprT, evalExprT, evalExprT, un_minus]
    refine sub_ints (usual_vals cfg hu a ha) (fun i => checkedI128 (.overflow 0 s!' "-" i) (0 - i))
      (fun i => negI128 cfg.build i >>= fun n => .ok (.int n)) fun i hi hc => ?_
    rw [checkedI128_eq] at hc ⊢
    split
    · rename_i h
      have : i ≠ i128Min := by
        rintro rfl
        revert h
        decide
      unfold negI128
      rw [if_neg this]
      show Except.ok _ = Except.ok _
      congr 2
      omega
    · rename_i h
      rw [if_neg h] at hc
      rcases hc with hc | ⟨w, hw⟩
      · exact hc.elim
      · cases hw

/-! ### what does not -/

/-- **C101** `a + 0` is not `a`: for an array it appends. -/
theorem C101_not_plus_zero : ¬ ServesFor (.bin .plus (.call (.ident s!' "hist") []) (.int 0)) (.call (.ident s!' "hist") []) := by
  intro h
  have := h.evaluated demo (State.new demo none) (usual_new demo none) 0 (Live.steady demo.host) 0 (.array [.int 0] true) (by with_unfolding_all rfl)
  have := congrArg (fun l => match l.result with | .ok (.array xs _) => xs.length | _ => 5) this
  revert this
  decide +kernel

/-- **C101** `!!a` is not `a`: for an integer it gives whether it is not zero. -/
theorem C101_not_twice : ¬ ServesFor (.un .not (.un .not (.int 5))) (.int 5) := by
  intro h
  have := h.evaluated demo (State.new demo none) (usual_new demo none) 0 (Live.steady demo.host) 0 (.bool true) rfl
  cases this

/-! ### the hypotheses can be met -/

set_option maxRecDepth 100000 in
/-- two programs that differ in a comparison, in the condition of a loop -/
theorem loop_spelled : ∃ p p', Spells s!' "x = 0; while x < 3 { x = x + 1; print x; }" p ∧
    Spells s!' "x = 0; while !(x >= 3) { x = x + 1; print (x); }" p' ∧ ExchangedProg SameMeaning p p' := by
  refine ⟨[.assign (.ident ['x']) (.int 0), .while (.bin .lt (.ident ['x']) (.int 3))
      [.assign (.ident ['x']) (.bin .plus (.ident ['x']) (.int 1)), .print (.ident ['x'])]],
    [.assign (.ident ['x']) (.int 0), .while (.un .not (.paren (.bin .ge (.ident ['x']) (.int 3))))
      [.assign (.ident ['x']) (.bin .plus (.ident ['x']) (.int 1)), .print (.paren (.ident ['x']))]],
    spells_iff.2 (by with_unfolding_all rfl), spells_iff.2 (by with_unfolding_all rfl),
    .cons (.same _) (.cons (.while (.here (C101_compare _ _).2.2.2) (.cons (.same _)
      (.cons (.print (.here (same_symm (C101_paren _)))) .nil))) .nil)⟩

example (cfg : Cfg) (ω : Live) :
    scriptMainL cfg none ω (some (encoded s!' "x = 0; while !(x >= 3) { x = x + 1; print (x); }")) =
      scriptMainL cfg none ω (some (encoded s!' "x = 0; while x < 3 { x = x + 1; print x; }")) := by
  obtain ⟨p, p', h1, h2, h3⟩ := loop_spelled
  have e1 : stripComments s!' "x = 0; while x < 3 { x = x + 1; print x; }" =
      s!' "x = 0; while x < 3 { x = x + 1; print x; }" := by decide +kernel
  have e2 : stripComments s!' "x = 0; while !(x >= 3) { x = x + 1; print (x); }" =
      s!' "x = 0; while !(x >= 3) { x = x + 1; print (x); }" := by decide +kernel
  exact C101_script cfg none ω _ _ p p' (by rw [e1]; exact h1) (by rw [e2]; exact h2) h3

set_option maxRecDepth 100000 in
/-- two programs that differ in the index of a target and in a condition -/
theorem target_spelled : ∃ p p',
    Spells s!' "a = hist() + 4; a[0 * 1] = 7; if !((a[0] == 7) && false) { print a[0]; }" p ∧
    Spells s!' "a = hist() + 4; a[0] = 7; if !(a[0] == 7) || !false { print a[0]; }" p' ∧ ExchangedProg ServesFor p p' := by
  refine ⟨[.assign (.ident ['a']) (.bin .plus (.call (.ident s!' "hist") []) (.int 4)),
      .assign (.index (.ident ['a']) (.bin .mul (.int 0) (.int 1))) (.int 7),
      .ite (.un .not (.paren (.bin .land (.paren (.bin .eq (.index (.ident ['a']) (.int 0)) (.int 7))) (.bool false))))
        [.print (.index (.ident ['a']) (.int 0))] []],
    [.assign (.ident ['a']) (.bin .plus (.call (.ident s!' "hist") []) (.int 4)),
      .assign (.index (.ident ['a']) (.int 0)) (.int 7),
      .ite (.bin .lor (.un .not (.paren (.bin .eq (.index (.ident ['a']) (.int 0)) (.int 7)))) (.un .not (.bool false)))
        [.print (.index (.ident ['a']) (.int 0))] []],
    spells_iff.2 (by with_unfolding_all rfl), spells_iff.2 (by with_unfolding_all rfl), ?_⟩
  exact .cons (.same _) (.cons (.assign (.index (.same _) (.here (C101_units _).1)) (.same _))
    (.cons (.ite (.here (C101_de_morgan _ _).1) (.cons (.same _) .nil) .nil) .nil))

set_option maxRecDepth 100000 in
example (cfg : Cfg) (rs : RState) (hu : Usual rs.ev) (ω : Live) (n : Nat)
    (h : ∀ f, ((runtimeEvalT cfg rs s!' "a = hist() + 4; a[0 * 1] = 7; if !((a[0] == 7) && false) { print a[0]; }").live
      cfg.fuel ω n).result.2 ≠ .fail f) :
    (runtimeEvalT cfg rs s!' "a = hist() + 4; a[0] = 7; if !(a[0] == 7) || !false { print a[0]; }").live cfg.fuel ω n =
      (runtimeEvalT cfg rs s!' "a = hist() + 4; a[0 * 1] = 7; if !((a[0] == 7) && false) { print a[0]; }").live cfg.fuel ω n := by
  obtain ⟨p, p', h1, h2, h3⟩ := target_spelled
  exact C101_entry_serves cfg rs hu _ _ p p' h1 h2 h3 cfg.fuel ω n h

set_option maxRecDepth 100000 in
/-- it ends without an error -/
example : (runtimeEvalT demo (RState.new demo none)
    s!' "a = hist() + 4; a[0 * 1] = 7; if !((a[0] == 7) && false) { print a[0]; }").live 10 (Live.steady demo.host) 0 |>.result.2 = .ok := by
  decide +kernel

end Btrd
