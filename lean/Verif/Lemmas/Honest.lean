/-
The evaluator that asks warns about what it skips, and about nothing else.
-/
import Verif.Spec.Live
import Verif.Lemmas.Live
import Verif.Lemmas.WorldSearch

namespace Btrd
open Spec

/-- warnings, then the rest -/
def T.warns {α : Type} (ws : List Warned) (k : T α) : T α := ws.foldr .warn k

theorem warns_bind {α β : Type} (f : α → T β) (k : T α) : ∀ ws : List Warned,
    (T.warns ws k).bind f = T.warns ws (k.bind f)
  | [] => rfl
  | w :: ws => by
    show T.warn w ((T.warns ws k).bind f) = T.warn w (T.warns ws (k.bind f))
    rw [warns_bind f k ws]

theorem warns_live {α : Type} (fuel : Nat) (ω : Live) (k : T α) (t : Nat) : ∀ ws : List Warned,
    (T.warns ws k).live fuel ω t =
      { k.live fuel ω t with log := ws.map .warned ++ (k.live fuel ω t).log }
  | [] => rfl
  | w :: ws => by
    show ((T.warns ws k).live fuel ω t).after (.warned w) = _
    rw [warns_live fuel ω k t ws]
    rfl

/-- the warnings about these items, as the evaluator finds them -/
def heard (b : Build) : List Item → List Warned
  | [] => []
  | (h, bytes) :: its =>
    match structForKey h.objectid h.ty h.offset with
    | none => keyWarned h :: heard b its
    | some s =>
      match structFromBytes b s (some (h.objectid, h.ty, h.offset)) bytes with
      | .ok _ => heard b its
      | .error _ => []

/-- none if the search failed -/
def heardR (b : Build) : R (List Item) → List Warned
  | .ok its => heard b its
  | .error _ => []

/-- one computation after another, for those that may fail -/
theorem ebind_warns {α β : Type} (ws : List Warned) (r : R α) (f : α → E β) :
    (show E α from T.warns ws (.ret r)) >>= f = T.warns ws (match r with
      | .ok a => f a
      | .error e => T.ret (.error e)) := by
  refine (warns_bind (α := R α) _ _ ws).trans ?_
  cases r <;> rfl

theorem decodeItemsT_eq (b : Build) : ∀ its : List Item,
    decodeItemsT b its = T.warns (heard b its) (.ret (decodeItems b its))
  | [] => rfl
  | (h, bytes) :: its => by
    rw [decodeItemsT, decodeItems, heard]
    cases structForKey h.objectid h.ty h.offset with
    | none =>
      dsimp only
      rw [decodeItemsT_eq b its]
      rfl
    | some s =>
      dsimp only
      cases structFromBytes b s (some (h.objectid, h.ty, h.offset)) bytes with
      | error e => rfl
      | ok sv =>
        dsimp only
        rw [decodeItemsT_eq b its]
        refine (ebind_warns (heard b its) (decodeItems b its) fun vs => E.of (.ok (.struct sv.name sv.key sv.fields :: vs))).trans ?_
        cases decodeItems b its <;> rfl

theorem heard_of (b : Build) : ∀ its : List Item, Small its → Heard its (heard b its)
  | [], _ => .nil
  | (h, bytes) :: its, hsm => by
    have hp : bytes.length < 2 ^ 63 := hsm (h, bytes) (by simp)
    have ih := heard_of b its (fun it hi => hsm it (by simp [hi]))
    rw [heard]
    cases hk : structForKey h.objectid h.ty h.offset with
    | none => exact .skip ((holds_no_struct h).2 hk) ih
    | some s =>
      have hs := structForKey_mem hk
      have hn := (holds_struct_iff h s hs).2 hk
      dsimp only
      cases hr : structFromBytes b s (some (h.objectid, h.ty, h.offset)) bytes with
      | ok sv => exact .item hs hn ((read_iff b s hs _ bytes (by omega) sv).1 hr).2.2 ih
      | error e =>
        refine .stops hn fun s' out hs' hname hra => ?_
        have := named_struct hs' hs hname
        subst this
        rw [(read_iff b s' hs _ bytes (by omega) ⟨s'.name, some (h.objectid, h.ty, h.offset), out⟩).2 ⟨rfl, rfl, hra⟩] at hr
        cases hr

theorem heard_unique {its : List Item} {ws ws' : List Warned} (h : Heard its ws) (h' : Heard its ws') : ws = ws' := by
  induction h generalizing ws' with
  | nil => cases h'; rfl
  | skip hn _ ih =>
    cases h' with
    | skip _ h' => rw [ih h']
    | item _ h1 _ _ => exact absurd h1 (hn _)
    | stops h1 _ => exact absurd h1 (hn _)
  | @item hd payload s out its ws hs h1 h2 _ ih =>
    cases h' with
    | skip hn _ => exact absurd h1 (hn _)
    | item _ _ _ h' => exact ih h'
    | stops h3 h4 =>
      rw [holds_struct] at h1 h3
      rw [h1] at h3
      exact absurd h2 (h4 s out hs (Option.some.inj h3))
  | @stops hd payload name its h1 h2 =>
    cases h' with
    | skip hn _ => exact absurd h1 (hn _)
    | item hs h3 h4 _ =>
      rw [holds_struct] at h1 h3
      rw [h1] at h3
      exact absurd h4 (h2 _ _ hs (Option.some.inj h3).symm)
    | stops _ _ => rfl

/-- what a search finds comes from buffers -/
theorem search_small {fuel : Nat} {fs : Fs} {a : SearchArgs} {items : List Item} (h : fs.search fuel a = .ok items) :
    Small items := by
  cases fs with
  | unmounted img => cases h
  | mounted k =>
    have := ((searched_iff k a items).1 ⟨fuel, h⟩).1
    exact talk_small this (fun _ h => by simp at h)

/-! ### computations that warn about what they skip -/

inductive Frank (b : Build) {α : Type} : T α → Prop where
  | ret (a : α) : Frank b (.ret a)
  | search (fs a k) (k' : R (List Item) → T α) : (∀ r, k r = T.warns (heardR b r) (k' r)) → (∀ r, Frank b (k' r)) →
      Frank b (.search fs a k)
  | bytes (fs i j k) : (∀ r, Frank b (k r)) → Frank b (.bytes fs i j k)
  | opens (p k) : (∀ r, Frank b (k r)) → Frank b (.opens p k)

theorem frank_bind {b : Build} {α β : Type} {f : α → T β} (hf : ∀ a, Frank b (f a)) {x : T α} (h : Frank b x) :
    Frank b (x.bind f) := by
  induction h with
  | ret a => exact hf a
  | search fs a k k' hk _ ih =>
    refine .search fs a _ (fun r => (k' r).bind f) (fun r => ?_) ih
    rw [hk r, warns_bind]
  | bytes fs i j k _ ih => exact .bytes fs i j _ ih
  | opens p k _ ih => exact .opens p _ ih

/-- the same for computations that may fail -/
def FrankE (b : Build) {α : Type} (x : E α) : Prop := Frank (α := R α) b x

theorem franke_of {b : Build} {α : Type} (r : R α) : FrankE b (E.of r) := Frank.ret r

theorem franke_bind {b : Build} {α β : Type} {x : E α} {f : α → E β} (h : FrankE b x) (hf : ∀ a, FrankE b (f a)) :
    FrankE b (x >>= f) := by
  refine frank_bind (α := R α) (fun r => ?_) h
  cases r with
  | ok a => exact hf a
  | error e => exact Frank.ret _

theorem franke_bytes {b : Build} (fs : Fs) (i j : Nat) : FrankE b (E.bytes fs i j) := .bytes fs i j _ fun r => .ret r

theorem franke_opens {b : Build} (p : Str) : FrankE b (E.opens p) := .opens p _ fun r => .ret r

theorem franke_search (b : Build) (fs : Fs) (a : SearchArgs) {β : Type} (f : List Value → E β) (hf : ∀ vs, FrankE b (f vs)) :
    FrankE b (E.search fs a >>= fun its => decodeItemsT b its >>= f) := by
  refine Frank.search (α := R β) fs a _ (fun r => match r with
    | .ok its => (match decodeItems b its with
      | .ok vs => f vs
      | .error e => T.ret (.error e))
    | .error e => T.ret (.error e)) (fun r => ?_) (fun r => ?_)
  · cases r with
    | error e => rfl
    | ok its =>
      show (decodeItemsT b its >>= f : E β) = _
      rw [decodeItemsT_eq]
      refine (ebind_warns (heard b its) (decodeItems b its) f).trans ?_
      dsimp only [heardR]
      cases decodeItems b its <;> rfl
  · cases r with
    | error e => exact .ret _
    | ok its =>
      dsimp only
      cases decodeItems b its with
      | error e => exact .ret _
      | ok vs => exact hf vs

section
variable {b : Build}

theorem franke_intOp (f : Int → Int → R Value) {l r : E Value} (hl : FrankE b l) (hr : FrankE b r) : FrankE b (intOpT f l r) :=
  franke_bind hl fun _ => franke_bind (franke_of _) fun _ => franke_bind hr fun _ => franke_bind (franke_of _) fun _ => franke_of _

theorem franke_binop (op : BinOp) {l r : E Value} (hl : FrankE b l) (hr : FrankE b r) : FrankE b (binopT op l r) := by
  cases op <;> (try exact franke_intOp _ hl hr)
  · exact franke_bind hl fun _ => franke_bind hr fun _ => franke_of _
  · exact franke_bind hl fun _ => franke_bind hr fun _ => franke_of _
  · exact franke_bind hl fun _ => franke_bind hr fun _ => franke_of _
  · refine franke_bind hl fun _ => franke_bind (franke_of _) fun c => ?_
    split
    · exact franke_of _
    · exact franke_bind hr fun _ => franke_bind (franke_of _) fun _ => franke_of _
  · refine franke_bind hl fun _ => franke_bind (franke_of _) fun c => ?_
    split
    · exact franke_of _
    · exact franke_bind hr fun _ => franke_bind (franke_of _) fun _ => franke_of _

theorem franke_unop (b' : Build) (op : UnOp) {x : E Value} (h : FrankE b x) : FrankE b (unopT b' op x) :=
  franke_bind h fun _ => franke_of _

theorem franke_cast (b' : Build) (fs : Option Fs) (ty : Expr) {x : E Value} (h : FrankE b x) : FrankE b (castOpT b' fs ty x) := by
  refine franke_bind h fun _ => franke_bind (franke_of _) fun p => ?_
  by_cases hp : p < 0
  · simp only [hp, if_true]; exact franke_of _
  · simp only [hp, if_false]
    cases ty with
    | ident name =>
      dsimp only
      cases findStruct name with
      | none => exact franke_of _
      | some s =>
        cases fs with
        | none => exact franke_of _
        | some fs =>
          exact franke_bind (franke_of _) fun _ => franke_bind (franke_bytes ..) fun _ => franke_bind (franke_of _) fun _ => franke_of _
    | _ => exact franke_of _

theorem franke_intArgs : ∀ {args : List (E Value)}, (∀ x ∈ args, FrankE b x) → FrankE b (intArgsT args)
  | [], _ => franke_of _
  | _ :: _, h => franke_bind (h _ (by simp)) fun _ => franke_bind (franke_of _) fun _ =>
      franke_bind (franke_intArgs fun x hx => h x (by simp [hx])) fun _ => franke_of _

theorem franke_key (b' : Build) {args : List (E Value)} (h : ∀ x ∈ args, FrankE b x) : FrankE b (keyFnT b' args) :=
  franke_bind (franke_of _) fun _ => franke_bind (franke_intArgs h) fun _ => franke_of _

theorem franke_searchFn (fs : Option Fs) {args : List (E Value)} (h : ∀ x ∈ args, FrankE b x) :
    FrankE b (searchFnT b fs args) := by
  refine franke_bind (franke_of _) fun _ => ?_
  match args, h with
  | [], _ => exact franke_of _
  | [_], _ => exact franke_of _
  | [a0, a1], h =>
    refine franke_bind (h _ (by simp)) fun _ => franke_bind (franke_of _) fun _ => franke_bind (h _ (by simp)) fun _ =>
      franke_bind (franke_of _) fun _ => franke_bind (franke_of _) fun _ => ?_
    cases fs with
    | none => exact franke_of _
    | some fs => exact franke_bind (franke_of _) fun sa => franke_search b fs sa _ fun _ => franke_of _
  | _ :: _ :: _ :: _, _ => exact franke_of _

theorem franke_arg1 (msg : Str) {args : List (E Value)} (h : ∀ x ∈ args, FrankE b x) : FrankE b (arg1T msg args) := by
  refine franke_bind (franke_of _) fun _ => ?_
  match args, h with
  | [], _ => exact franke_of _
  | [a], h => exact h a (by simp)
  | _ :: _ :: _, _ => exact franke_of _

theorem franke_call (cfg : Cfg) (hb : cfg.build = b) (fs : Option Fs) {f : E Value} {args : List (E Value)} (hf : FrankE b f)
    (h : ∀ x ∈ args, FrankE b x) : FrankE b (callFnT cfg fs f args) := by
  refine franke_bind hf fun _ => franke_bind (franke_of _) fun fn => ?_
  cases fn with
  | key => exact franke_key _ h
  | search => subst hb; exact franke_searchFn _ h
  | hist => exact franke_bind (franke_of _) fun _ => franke_of _
  | _ => exact franke_bind (franke_arg1 _ h) fun _ => franke_of _

theorem franke_index {x i : E Value} (hx : FrankE b x) (hi : FrankE b i) : FrankE b (indexOpT x i) :=
  franke_bind hx fun _ => franke_bind (franke_of _) fun _ => franke_bind hi fun _ => franke_bind (franke_of _) fun _ =>
    franke_bind (franke_of _) fun _ => franke_of _

mutual
theorem franke_expr (cfg : Cfg) (st : State) : ∀ e : Expr, FrankE cfg.build (evalExprT cfg st e)
  | .ident _ => by rw [evalExprT]; exact franke_of _
  | .int _ => by rw [evalExprT]; exact franke_of _
  | .bool _ => by rw [evalExprT]; exact franke_of _
  | .str _ => by rw [evalExprT]; exact franke_of _
  | .paren e => by rw [evalExprT]; exact franke_expr cfg st e
  | .field e f => by rw [evalExprT]; exact franke_bind (franke_expr cfg st e) fun _ => franke_of _
  | .index e i => by rw [evalExprT]; exact franke_index (franke_expr cfg st e) (franke_expr cfg st i)
  | .call f args => by rw [evalExprT]; exact franke_call cfg rfl _ (franke_expr cfg st f) (franke_args cfg st args)
  | .bin op l r => by rw [evalExprT]; exact franke_binop op (franke_expr cfg st l) (franke_expr cfg st r)
  | .un op e => by rw [evalExprT]; exact franke_unop _ op (franke_expr cfg st e)
  | .cast ty e => by rw [evalExprT]; exact franke_cast _ _ ty (franke_expr cfg st e)
theorem franke_args (cfg : Cfg) (st : State) : ∀ (es : List Expr), ∀ x ∈ evalArgsT cfg st es, FrankE cfg.build x
  | [] => by rw [evalArgsT]; simp
  | e :: es => by
    rw [evalArgsT]
    intro x hx
    rcases List.mem_cons.1 hx with rfl | hx
    · exact franke_expr cfg st e
    · exact franke_args cfg st es x hx
end

theorem franke_cond (cfg : Cfg) (st : State) (e : Expr) : FrankE cfg.build (evalCondT cfg st e) :=
  franke_bind (franke_expr cfg st e) fun _ => franke_of _

theorem franke_lhs (cfg : Cfg) (st : State) : ∀ (e : Expr) (f : Value → R Value), FrankE cfg.build (modifyLhsT cfg st e f)
  | .field e fld, f => by
    rw [modifyLhsT.eq_def]
    cases fld with
    | ident name => exact franke_lhs cfg st e _
    | _ => exact franke_of _
  | .index e i, f => by
    rw [modifyLhsT.eq_def]
    exact franke_bind (franke_expr cfg st i) fun _ => franke_bind (franke_of _) fun _ => franke_lhs cfg st e _
  | .ident _, _ => franke_of _
  | .int _, _ => franke_of _
  | .bool _, _ => franke_of _
  | .str _, _ => franke_of _
  | .paren _, _ => franke_of _
  | .call _ _, _ => franke_of _
  | .bin _ _ _, _ => franke_of _
  | .un _ _, _ => franke_of _
  | .cast _ _, _ => franke_of _

theorem frank_into {α : Type} {x : E α} (h : FrankE b x) (st : State) {k : α → T (State × IRes)} (hk : ∀ a, Frank b (k a)) :
    Frank b (x.into st k) := by
  refine frank_bind (α := R α) (fun r => ?_) h
  cases r with
  | ok a => exact hk a
  | error e => exact .ret _

end

section
variable (cfg : Cfg)

theorem frank_assign (st : State) (l r : Expr) : Frank cfg.build (evalAssignT cfg st l r) := by
  refine frank_into (franke_expr cfg st r) st fun v => ?_
  cases l with
  | ident name => exact frank_into (franke_of _) st fun _ => .ret _
  | _ => exact frank_into (franke_lhs cfg st _ _) st fun _ => .ret _

theorem frank_exprStmt (st : State) (e : Expr) : Frank cfg.build (evalExprStmtT cfg st e) := by
  refine frank_into (franke_expr cfg st e) st fun v => ?_
  cases cfg.interactive
  · exact .ret _
  · exact frank_into (franke_of _) st fun _ => .ret _

theorem frank_scope {b : Build} (st : State) {body : State → T (State × IRes)} (h : ∀ st, Frank b (body st)) :
    Frank b (inScopeT st body) := frank_bind (fun _ => .ret _) (h _)

theorem frank_while {b : Build} {c : State → E Bool} {body : State → T (State × IRes)} (hc : ∀ st, FrankE b (c st))
    (hb : ∀ st, Frank b (body st)) : ∀ (n : Nat) (st : State), Frank b (whileLoopT c body n st)
  | 0, _ => .ret _
  | n + 1, st => by
    refine frank_into (hc st) st fun c => ?_
    cases c
    · exact .ret _
    · refine frank_bind (fun r => ?_) (hb st)
      obtain ⟨st', r⟩ := r
      cases r with
      | ok => exact frank_while hc hb n st'
      | cont => exact frank_while hc hb n st'
      | _ => exact .ret _

theorem frank_for {b : Build} (name : Str) {body : State → T (State × IRes)}
    (hb : ∀ st, Frank b (body st)) : ∀ (vs : List Value) (st : State), Frank b (forLoopT name body vs st)
  | [], _ => .ret _
  | v :: vs, st => by
    refine frank_into (franke_of _) st fun c => frank_bind (fun r => ?_) (hb _)
    obtain ⟨st', r⟩ := r
    cases r with
    | ok => exact frank_for name hb vs st'
    | cont => exact frank_for name hb vs st'
    | _ => exact .ret _

theorem frank_evalFor (x range : Expr) {body : State → T (State × IRes)} (hb : ∀ st, Frank cfg.build (body st)) (st : State) :
    Frank cfg.build (evalForT cfg x range body st) := by
  unfold evalForT
  cases x with
  | ident name =>
    exact frank_into (franke_expr cfg st range) st fun _ => frank_into (franke_of _) st fun _ => frank_for name hb _ st
  | _ => exact .ret _

mutual
theorem frank_stmt : ∀ (s : Stmt) (st : State), Frank cfg.build (evalStmtT cfg s st)
  | .assign l r, st => by rw [evalStmtT]; exact frank_assign cfg st l r
  | .ite c t f, st => by
    rw [evalStmtT]
    refine frank_scope st fun st => frank_into (franke_cond cfg st c) st fun b => ?_
    cases b
    · exact frank_stmts f st
    · exact frank_stmts t st
  | .while c body, st => by
    rw [evalStmtT]
    exact frank_scope st fun st => frank_while (fun st => franke_cond cfg st c) (fun st => frank_stmts body st) _ st
  | .for x r body, st => by
    rw [evalStmtT]
    exact frank_scope st fun st => frank_evalFor cfg x r (fun st => frank_stmts body st) st
  | .brk, st => by rw [evalStmtT]; exact .ret _
  | .cont, st => by rw [evalStmtT]; exact .ret _
  | .help, st => by rw [evalStmtT]; exact .ret _
  | .quit, st => by rw [evalStmtT]; exact .ret _
  | .filesystem e, st => by
    rw [evalStmtT]
    exact frank_into (franke_expr cfg st e) st fun _ => frank_into (franke_of _) st fun _ =>
      frank_into (franke_opens _) st fun _ => .ret _
  | .print e, st => by
    rw [evalStmtT]
    exact frank_into (franke_expr cfg st e) st fun _ => frank_into (franke_of _) st fun _ => .ret _
  | .expr e, st => by rw [evalStmtT]; exact frank_exprStmt cfg st e
theorem frank_stmts : ∀ (ss : List Stmt) (st : State), Frank cfg.build (evalStmtsT cfg ss st)
  | [], st => by rw [evalStmtsT]; exact .ret _
  | s :: ss, st => by
    rw [evalStmtsT]
    refine frank_bind (fun r => ?_) (frank_stmt s st)
    obtain ⟨st', r⟩ := r
    cases r with
    | ok => exact frank_stmts ss st'
    | _ => exact .ret _
end

theorem frank_runtime (rs : RState) (cmd : Str) : Frank cfg.build (runtimeEvalT cfg rs cmd) := by
  unfold runtimeEvalT
  cases parse cmd with
  | none => exact .ret _
  | some p =>
    dsimp only
    generalize analyzeStmts p rs.sem = r
    obtain ⟨sem, r⟩ := r
    cases r with
    | error e => exact .ret _
    | ok _ => exact frank_bind (fun _ => .ret _) (frank_stmts cfg p rs.ev)

end

/-- the log of a computation that warns about what it skips -/
theorem frank_log {b : Build} {α : Type} (fuel : Nat) (ω : Live) {x : T α} (h : Frank b x) : ∀ t : Nat,
    Honest (x.live fuel ω t).log := by
  induction h with
  | ret a => intro t; exact .nil
  | search fs a k k' hk _ ih =>
    intro t
    simp only [T.live, after_log]
    rw [hk, warns_live]
    dsimp only
    cases hr : (ω.drift t fs).search fuel a with
    | error e => exact .failed (ih _ _)
    | ok items => exact .searched (heard_of b items (search_small hr)) (ih _ _)
  | bytes fs i j k _ ih => intro t; exact .read (ih _ _)
  | opens p k _ ih => intro t; exact .opened (ih _ _)

end Btrd
