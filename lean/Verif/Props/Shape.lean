/-
C99: structs are what the kernel's header says, whatever programs do with them. And C23 in a changing world.
-/
import Verif.Lemmas.Lasting
import Verif.Props.Good
import Verif.Props.Decode
import Verif.Props.InUse
import Verif.Lemmas.Errors

namespace Btrd
open Spec

/-! ### what holds of all values of a session -/

/-- the interpreter after these events, in a world that changes as it likes -/
def afterwards (cfg : Cfg) (room : Option Nat) (ts : List LiveTick) : State :=
  (procRunL { cfg with interactive := true } (procStart cfg room).1 ts).1.1.rs.ev

section
variable {Lit : Int → Prop} {P : Value → Prop} (L : Lasting Lit P)
include L

theorem lasting_entry (hl : ∀ i, Spec.Fits i → Lit i) (cfg : Cfg) (ω : Live) (rs : RState) (text : Str) (t : Nat)
    (h : AllVars P rs.ev.vars) : AllVars P ((runtimeEvalT cfg rs text).live cfg.fuel ω t).result.1.ev.vars := by
  have : Leads (fun r : RState × EvalResult => AllVars P r.1.ev.vars) (runtimeEvalT cfg rs text) := by
    unfold runtimeEvalT
    cases hp : parse text with
    | none => exact .ret h
    | some p =>
      dsimp only
      generalize analyzeStmts p rs.sem = r
      obtain ⟨sem, r⟩ := r
      cases r with
      | error e => exact .ret h
      | ok _ =>
        have lits : allE (fun e => ∀ i ∈ e.literals, Lit i) p := allE_mono (fun e he i hi => hl i (he i hi)) p (parse_literals hp)
        have := Leads.bind (Q := AllState P) (S := fun r : RState × EvalResult => AllVars P r.1.ev.vars)
          (f := fun (r : State × IRes) => .ret ((⟨sem, r.1⟩ : RState), r.2.toEvalResult)) (fun r hr => .ret hr)
          (leads_stmts L cfg p lits rs.ev h)
        exact this
  exact this.result cfg.fuel ω t

omit L in
theorem printlns_all {st : State} (ss : List Str) (h : AllVars P st.vars) : AllVars P (st.printlns ss).1.vars := by
  induction ss generalizing st with
  | nil => exact h
  | cons s ss ih =>
    have : AllVars P (st.println s).1.vars := by
      have := State.write_vars st (s ++ ['\n'])
      unfold State.println
      split <;> rename_i h' <;> rw [h'] at this <;> dsimp only at this ⊢ <;> rw [this] <;> exact h
    rw [State.printlns]
    generalize st.println s = r at this
    obtain ⟨st', b⟩ := r
    cases b
    · exact this
    · exact ih this

theorem lasting_step (hl : ∀ i, Spec.Fits i → Lit i) (cfg : Cfg) (ω : Live) (p : Proc) (ev : ReplEvent)
    (h : AllVars P p.rs.ev.vars) : AllVars P (procStepL cfg ω p ev).1.1.rs.ev.vars := by
  have pr : ∀ (q : Proc) (s : Str) (x : ProcStatus), AllVars P q.rs.ev.vars → AllVars P (q.println s x).1.rs.ev.vars := by
    intro q s x hq
    have := printlns_all [s] hq
    unfold Proc.println
    rw [State.printlns] at this
    generalize q.rs.ev.println s = r at this
    obtain ⟨ev, b⟩ := r
    cases b <;> exact this
  cases ev with
  | line s =>
    have h := lasting_entry L hl cfg ω p.rs (fixupInput (stripComments s)) 0 h
    show AllVars P (procLine p.err _).1.1.rs.ev.vars
    generalize (runtimeEvalT cfg p.rs (fixupInput (stripComments s))).live cfg.fuel ω 0 = l at h ⊢
    obtain ⟨t, log, rs, r⟩ := l
    cases r with
    | fail f => cases f <;> exact h
    | _ => exact h
  | interrupted => exact h
  | eof => exact pr p _ _ h
  | otherError => exact pr ⟨p.rs, _⟩ _ _ h

theorem lasting_run (hl : ∀ i, Spec.Fits i → Lit i) (cfg : Cfg) : ∀ (ts : List LiveTick) (p : Proc), AllVars P p.rs.ev.vars →
    AllVars P (procRunL cfg p ts).1.1.rs.ev.vars
  | [], _, h => h
  | t :: ts, p, h => by
    have h := lasting_step L hl cfg t.world (p.meets t.drift) t.event h
    rw [procRunL]
    generalize procStepL cfg t.world (p.meets t.drift) t.event = r at h
    obtain ⟨⟨p', x⟩, log⟩ := r
    cases x with
    | running => exact lasting_run hl cfg ts p' h
    | _ => exact h

theorem lasting_initial : AllVars P [initialScope Value.int Value.func] := by
  rw [AllVars.cons]
  refine ⟨?_, by simp [AllVars]⟩
  intro x v h
  rcases foldl_set_mem Function.display Value.func functions _ x v h with h | ⟨f, -, rfl⟩
  · rcases foldl_set_mem (fun c : Str × Int => c.1) (fun c => Value.int c.2) constants _ x v h with h | ⟨c, hc, rfl⟩
    · simp [Scope.empty] at h
    · exact L.int _ (L.fits _ (constants_fit c hc))
  · exact L.func f

/-- in every session -/
theorem lasting_session (cfg : Cfg) (room : Option Nat) (ts : List LiveTick) : AllVars P (afterwards cfg room ts).vars := by
  refine lasting_run L L.fits _ ts _ ?_
  have := printlns_all (P := P) (st := State.new cfg room) welcomeLines (lasting_initial L)
  unfold procStart
  generalize (State.new cfg room).printlns welcomeLines = r at this
  obtain ⟨st, b⟩ := r
  cases b <;> exact this

/-- and of the value of every expression there -/
theorem lasting_value (cfg : Cfg) {st : State} (h : AllVars P st.vars) (ω : Live) (e : Expr)
    (hl : ∀ i ∈ e.literals, Lit i) (t : Nat) (v : Value)
    (hv : (T.live (α := R Value) cfg.fuel ω (evalExprT cfg st e) t).result = .ok v) : P v :=
  (vals_expr L cfg st h e hl).result cfg.fuel ω t v hv

end

/-! ### C23 in a changing world -/

/-- **C23** Also if the world changes during the session in any way, every integer inside every variable fits 128 bits. -/
theorem C23_live_variables (cfg : Cfg) (room : Option Nat) (ts : List LiveTick) (scope : Scope Value)
    (h : scope ∈ (afterwards cfg room ts).vars) (x : Str) (v : Value) (hx : scope x = some v) : AllInts Spec.Fits v :=
  (lasting_session good_lasting cfg room ts scope h x v hx).1

/-- **C23** and so does every integer inside the value of every expression, whatever the answers it gets. -/
theorem C23_live_expressions (cfg : Cfg) (room : Option Nat) (ts : List LiveTick) (ω : Live) (e : Expr)
    (hl : ∀ i ∈ e.literals, Spec.Fits i) (t : Nat) (v : Value)
    (hv : (T.live (α := R Value) cfg.fuel ω (evalExprT cfg (afterwards cfg room ts) e) t).result = .ok v) : AllInts Spec.Fits v :=
  (lasting_value good_lasting cfg (lasting_session good_lasting cfg room ts) ω e hl t v hv).1

/-! ### C99 -/

/-- **C99** Whatever is entered in a session and whatever the world does meanwhile: every struct inside every variable of
every scope, at any depth, is one of the structs of the kernel's header (or one of the few others) and has exactly the
fields it has there, in that order. -/
theorem C99_session (cfg : Cfg) (room : Option Nat) (ts : List LiveTick) (scope : Scope Value)
    (h : scope ∈ (afterwards cfg room ts).vars) (x : Str) (v : Value) (hx : scope x = some v) : Shaped v :=
  lasting_session shaped_lasting cfg room ts scope h x v hx

/-- **C99** So has every struct inside the value of any expression there, whatever answers its evaluation gets. -/
theorem C99_value (cfg : Cfg) (room : Option Nat) (ts : List LiveTick) (ω : Live) (e : Expr) (t : Nat) (v : Value)
    (hv : (T.live (α := R Value) cfg.fuel ω (evalExprT cfg (afterwards cfg room ts) e) t).result = .ok v) : Shaped v :=
  lasting_value shaped_lasting cfg (lasting_session shaped_lasting cfg room ts) ω e (fun _ _ => trivial) t v hv

/-- **C99** In the middle of a program, too: no statement of any program makes a struct that is not so. -/
theorem C99_program (cfg : Cfg) (ω : Live) (p : List Stmt) (st : State)
    (h : ∀ scope ∈ st.vars, ∀ x v, scope x = some v → Shaped v) (t : Nat) :
    ∀ scope ∈ ((evalStmtsT cfg p st).live cfg.fuel ω t).result.1.vars, ∀ x v, scope x = some v → Shaped v :=
  (leads_stmts shaped_lasting cfg p (allE_mono (fun _ _ _ _ => trivial) p (allE_true p)) st h).result cfg.fuel ω t

/-- the fields of a struct that always has the same -/
def fieldsOf (n : Str) : Option (List Str) :=
  match abi.find? (fun r => r.name == n) with
  | some r => some (r.members.map Member.name ++ trailing r.name)
  | none =>
    if n = s!' "_btrfs_ioctl_search_key" then some [s!' "min_objectid", s!' "max_objectid", s!' "min_type", s!' "max_type",
      s!' "min_offset", s!' "max_offset", s!' "min_transid", s!' "max_transid"]
    else if n = s!' "_anon_struct_0_btrfs_disk_balance_args" then some [s!' "usage_min", s!' "usage_max"]
    else if n = s!' "_anon_struct_1_btrfs_disk_balance_args" then some [s!' "limit_min", s!' "limit_max"]
    else none

theorem hasFields_fieldsOf {n : Str} {a : List Str} (h : HasFields n a) (hn : n ∉ varying) : fieldsOf n = some a := by
  cases h with
  | @header r hr =>
    have : ∀ r ∈ abi, fieldsOf r.name = some (r.members.map Member.name ++ trailing r.name) := by decide +kernel
    exact this r hr
  | searchKey => decide +kernel
  | usage => decide +kernel
  | limit => decide +kernel
  | _ => exact absurd (by decide +kernel) hn

/-- **C99** But for extents, file extents and inline references, what `typeof()` shows determines the fields. -/
theorem C99_same_fields {n : Str} {a b : List Str} (h : HasFields n a) (h' : HasFields n b) (hn : n ∉ varying) : a = b := by
  have := hasFields_fieldsOf h hn
  rw [hasFields_fieldsOf h' hn] at this
  exact (Option.some.inj this).symm

theorem fieldLookup_iff (fs : List (Str × Value)) (f : Str) : (∃ v, fieldLookup fs f = some v) ↔ f ∈ fs.map Prod.fst := by
  induction fs with
  | nil => simp [fieldLookup]
  | cons p fs ih =>
    obtain ⟨n, w⟩ := p
    simp only [fieldLookup, List.map_cons, List.mem_cons]
    split
    · rename_i hn; subst hn; simp
    · rename_i hn
      rw [ih]
      constructor
      · exact .inr
      · rintro (rfl | h)
        · exact absurd rfl hn
        · exact h

/-- **C99** Reading a field: if an expression of a session, in its evaluation, gives a struct with these fields, then
`.f` behind it succeeds exactly if `f` is one of them. -/
theorem C99_access (cfg : Cfg) (room : Option Nat) (ts : List LiveTick) (ω : Live) (e : Expr) (t : Nat)
    (n : Str) (k : Option (Int × Int × Int)) (fs : List (Str × Value)) (names : List Str)
    (hv : (T.live (α := R Value) cfg.fuel ω (evalExprT cfg (afterwards cfg room ts) e) t).result = .ok (.struct n k fs))
    (hn : n ∉ varying) (hf : HasFields n names) (f : Str) :
    (∃ v, (T.live (α := R Value) cfg.fuel ω (evalExprT cfg (afterwards cfg room ts) (.field e (.ident f))) t).result = .ok v) ↔
      f ∈ names := by
  have hs := (shaped_struct.1 (C99_value cfg room ts ω e t _ hv)).1
  rw [← C99_same_fields hs hf hn, ← fieldLookup_iff]
  have : (T.live (α := R Value) cfg.fuel ω (evalExprT cfg (afterwards cfg room ts) (.field e (.ident f))) t).result =
      fieldOp (.ok (.struct n k fs)) (.ident f) := by
    rw [evalExprT]
    refine (congrArg Lived.result (live_bind (α := R Value) cfg.fuel ω _ _ t)).trans ?_
    rw [hv]
    rfl
  rw [this]
  change (∃ v, orErr (fieldLookup fs f) _ = .ok v) ↔ _
  unfold orErr
  cases fieldLookup fs f <;> simp

/-- **C99** There are no other structs than those casts can name: the name of every struct value is a struct the tool knows. -/
theorem C99_known {n : Str} {a : List Str} (h : HasFields n a) : ∃ s, findStruct n = some s := by
  have all : ∀ m : Str, (findStruct m).isSome = true → ∃ s, findStruct m = some s := fun m hm => Option.isSome_iff_exists.1 hm
  cases h with
  | @header r hr =>
    have : ∀ r ∈ abi, (findStruct r.name).isSome = true := by decide +kernel
    exact all _ (this r hr)
  | _ => exact all _ (by decide +kernel)

/-! ### assignments keep the form -/

theorem sameForms_refl (vs : Vars Value) : SameForms vs vs := by
  have all : ∀ vs : Vars Value, SameForms vs vs := by
    intro vs
    induction vs with
    | nil => exact .nil
    | cons s vs ih =>
      refine .cons (fun x => ?_) ih
      cases s x with
      | none => exact .inl ⟨rfl, rfl⟩
      | some v => exact .inr ⟨v, v, rfl, rfl, .same v⟩
  exact all vs

theorem scope_same (s : Scope Value) (x : Str) : (s x = none ∧ s x = none) ∨
    ∃ v v', s x = some v ∧ s x = some v' ∧ SameForm v v' := by
  cases s x with
  | none => exact .inl ⟨rfl, rfl⟩
  | some v => exact .inr ⟨v, v, rfl, rfl, .same v⟩

theorem modify_sameForms {k : Str} {f : Value → R Value} (hf : ∀ v v', f v = .ok v' → SameForm v v') :
    ∀ {vs vs' : Vars Value}, vs.modify f k = some (.ok vs') → SameForms vs vs' := by
  intro vs
  induction vs with
  | nil => intro vs' h; simp [Vars.modify] at h
  | cons s vs ih =>
    intro vs' h
    simp only [Vars.modify] at h
    split at h
    · rename_i v hv
      split at h
      · rename_i v' hv'
        simp only [Option.some.injEq, Except.ok.injEq] at h; subst h
        refine .cons (fun x => ?_) (sameForms_refl vs)
        simp only [Scope.set]
        split
        · rename_i hx; subst hx; exact .inr ⟨v, v', hv, rfl, hf v v' hv'⟩
        · exact scope_same s x
      · simp at h
    · split at h
      · rename_i vs2 heq
        simp only [Option.some.injEq, Except.ok.injEq] at h; subst h
        exact .cons (scope_same s) (ih heq)
      · simp at h
      · simp at h

theorem modifyNth_length {er : Err} {f : Value → R Value} : ∀ {vs vs' : List Value} {n : Nat},
    modifyNth er f vs n = .ok vs' → vs.length = vs'.length := by
  intro vs
  induction vs with
  | nil => intro vs' n h; simp [modifyNth] at h
  | cons v vs ih =>
    intro vs' n h
    cases n with
    | zero =>
      simp only [modifyNth] at h
      obtain ⟨v', h1, h⟩ := bind_ok h
      simp only [Except.ok.injEq] at h; subst h; rfl
    | succ n =>
      simp only [modifyNth] at h
      obtain ⟨vs2, h1, h⟩ := bind_ok h
      simp only [Except.ok.injEq] at h; subst h
      simp [ih h1]

/-- all of it is true -/
theorem all_true : Lasting (fun _ => True) (fun _ => True) := by
  constructor <;> intros <;> simp

theorem lhs_form (cfg : Cfg) (st : State) : ∀ (e : Expr) (f : Value → R Value), (∀ v v', f v = .ok v' → SameForm v v') →
    Vals (SameForms st.vars) (modifyLhsT cfg st e f)
  | .field e fld, f, _ => by
    rw [modifyLhsT.eq_def]
    cases fld with
    | ident name =>
      refine lhs_form cfg st e _ fun v v' hv => ?_
      split at hv
      · obtain ⟨fs', h1, hv⟩ := bind_ok hv
        simp only [Except.ok.injEq] at hv; subst hv
        exact .struct (modifyField_names h1).symm
      · simp at hv
    | _ => exact vals_fail
  | .index e i, f, _ => by
    rw [modifyLhsT.eq_def]
    refine vals_bind (P := fun _ => True) (vals_expr all_true cfg st (fun _ _ _ _ _ => trivial) i fun _ _ => trivial) fun _ _ =>
      vals_then fun _ _ => lhs_form cfg st e _ fun v v' hv => ?_
    split at hv
    · obtain ⟨n, -, hv⟩ := bind_ok hv
      obtain ⟨vec', h1, hv⟩ := bind_ok hv
      simp only [Except.ok.injEq] at hv; subst hv
      exact .array (modifyNth_length h1)
    · simp at hv
  | .ident name, f, hf => by
    rw [modifyLhsT.eq_def]
    refine vals_of fun vs h => ?_
    simp only [modifyLhs] at h
    split at h
    · rename_i r hr
      rw [h] at hr
      exact modify_sameForms hf hr
    · simp at h
  | .int _, _, _ => vals_of fun _ h => by simp [modifyLhs] at h
  | .bool _, _, _ => vals_of fun _ h => by simp [modifyLhs] at h
  | .str _, _, _ => vals_of fun _ h => by simp [modifyLhs] at h
  | .paren _, _, _ => vals_of fun _ h => by simp [modifyLhs] at h
  | .call _ _, _, _ => vals_of fun _ h => by simp [modifyLhs] at h
  | .bin _ _ _, _, _ => vals_of fun _ h => by simp [modifyLhs] at h
  | .un _ _, _, _ => vals_of fun _ h => by simp [modifyLhs] at h
  | .cast _ _, _, _ => vals_of fun _ h => by simp [modifyLhs] at h

/-- **C99** Assigning to a field or an element, at any depth, whatever is evaluated on the way and whether it succeeds or
not: every variable still is the same kind of thing. A struct has the same name, the same key and the same fields, and
an array has the same length. -/
theorem C99_assignment (cfg : Cfg) (ω : Live) (st : State) (l r : Expr) (hl : ∀ x, l ≠ .ident x) (t : Nat) :
    SameForms st.vars ((evalStmtT cfg (.assign l r) st).live cfg.fuel ω t).result.1.vars := by
  suffices Leads (fun s : State × IRes => SameForms st.vars s.1.vars) (evalStmtT cfg (.assign l r) st) from
    this.result cfg.fuel ω t
  rw [evalStmtT]
  have into : ∀ {α : Type} {Q : α → Prop} {x : E α} (_ : Vals Q x) {k : α → T (State × IRes)}
      (_ : ∀ a, Q a → Leads (fun s : State × IRes => SameForms st.vars s.1.vars) (k a)),
      Leads (fun s : State × IRes => SameForms st.vars s.1.vars) (x.into st k) := by
    intro α Q x h k hk
    refine Leads.bind (α := R α) (fun r hr => ?_) h
    cases r with
    | ok a => exact hk a (hr a rfl)
    | error e => exact .ret (sameForms_refl _)
  refine into (Q := fun _ => True) (vals_expr all_true cfg st (fun _ _ _ _ _ => trivial) r fun _ _ => trivial) fun v _ => ?_
  have put : ∀ l : Expr, (∀ x, l ≠ .ident x) → Vals (SameForms st.vars) (modifyLhsT cfg st l fun _ => .ok v) := by
    intro l hl
    cases l with
    | ident x => exact absurd rfl (hl x)
    | field e fld =>
      rw [modifyLhsT.eq_def]
      cases fld with
      | ident name =>
        refine lhs_form cfg st e _ fun v v' hv => ?_
        split at hv
        · obtain ⟨fs', h1, hv⟩ := bind_ok hv
          simp only [Except.ok.injEq] at hv; subst hv
          exact .struct (modifyField_names h1).symm
        · simp at hv
      | _ => exact vals_fail
    | index e i =>
      rw [modifyLhsT.eq_def]
      refine vals_bind (P := fun _ => True) (vals_expr all_true cfg st (fun _ _ _ _ _ => trivial) i fun _ _ => trivial) fun _ _ =>
        vals_then fun _ _ => lhs_form cfg st e _ fun v v' hv => ?_
      split at hv
      · obtain ⟨n, -, hv⟩ := bind_ok hv
        obtain ⟨vec', h1, hv⟩ := bind_ok hv
        simp only [Except.ok.injEq] at hv; subst hv
        exact .array (modifyNth_length h1)
      · simp at hv
    | _ => exact vals_of fun _ h => by simp [modifyLhs] at h
  have := into (put l hl) (k := fun vs => .ret ({ st with vars := vs }, .ok)) fun vs hvs => .ret hvs
  cases l with
  | ident x => exact absurd rfl (hl x)
  | _ => exact this

/-! ### the forms all occur -/

/-- reading so many zero bytes as this struct shows these fields -/
def zeroShows (n : Str) (size : Nat) (names : List Str) : Bool :=
  match findStruct n with
  | some s =>
    match structFromBytes ⟨false⟩ s none (List.replicate size 0) with
    | .ok sv => sv.name == n && sv.fields.map Prod.fst == names
    | .error _ => false
  | none => false

/-- some bytes read as some struct show a struct with this name and these fields -/
def Attained (b : Build) (n : Str) (a : List Str) : Prop :=
  ∃ s bytes sv k fs, s ∈ structs ∧ bytes.length < 2 ^ 64 ∧ structFromBytes b s none bytes = .ok sv ∧
    PartOf (.struct n k fs) (.struct sv.name sv.key sv.fields) ∧ fs.map Prod.fst = a

theorem zeroShows_sound {n : Str} {size : Nat} {names : List Str} (h : zeroShows n size names = true) (hs : size < 2 ^ 64)
    (b : Build) : Attained b n names := by
  unfold zeroShows at h
  split at h
  · rename_i s hf
    split at h
    · rename_i sv hsv
      simp only [Bool.and_eq_true, beq_iff_eq] at h
      have hm := findStruct_mem' hf
      have hl : (List.replicate size (0 : UInt8)).length < 2 ^ 64 := by simpa using hs
      refine ⟨s, List.replicate size 0, sv, sv.key, sv.fields, hm, hl, ?_, ?_, h.2⟩
      · rw [structFromBytes_iff b s none _ hl (structs_wellFormed s hm)]
        exact (structFromBytes_iff _ s none _ hl (structs_wellFormed s hm) sv).1 hsv
      · rw [← h.1]; exact .self _
    · simp at h
  · simp at h

/-- so many references to tree blocks, and what they read as -/
theorem blockRefs : ∀ k : Nat, ∃ bytes vs, InlineRefs bytes vs ∧ bytes.length = 9 * k ∧
    vs.map Prod.fst = List.replicate k s!' "inline_ref"
  | 0 => ⟨_, _, .nil, rfl, rfl⟩
  | k + 1 => by
    obtain ⟨bytes, vs, h1, h2, h3⟩ := blockRefs k
    refine ⟨_, _, .blockRef (ty := 176) (off := List.replicate 8 0) (.inl rfl) (by simp) h1, ?_, ?_⟩
    · simp only [List.length_cons, List.length_append, List.length_replicate, h2]; omega
    · simp only [List.map_cons, h3, List.replicate_succ]

/-- **C99** Each of these structs there is: for all that can be in an item there are bytes of which it is read. -/
theorem C99_attained (b : Build) {n : Str} {a : List Str} (h : HasFields n a) (ha : a.length < 2 ^ 32) : Attained b n a := by
  have ref : ∀ bytes vs, InlineRefs bytes vs → bytes.length < 2 ^ 32 → ∀ f w, (f, w) ∈ vs → ∀ m k fs,
      w = .struct m k fs → Attained b m (fs.map Prod.fst) := by
    intro bytes vs hr hlen f w hw m k fs hwm
    subst hwm
    refine ⟨struct_btrfs_extent_item, List.replicate 8 0 ++ List.replicate 8 0 ++ List.replicate 8 0 ++ bytes,
      ⟨s!' "btrfs_extent_item", none, [(s!' "refs", .int (le (List.replicate 8 0))),
        (s!' "generation", .int (le (List.replicate 8 0))), (s!' "flags", .int (le (List.replicate 8 0)))] ++ vs⟩, k, fs,
      by simp [structs], ?_, ?_, ?_, rfl⟩
    · simp only [List.length_append, List.length_replicate]; omega
    · rw [C55_extent_item_iff b none _ (by simp only [List.length_append, List.length_replicate]; omega)]
      exact ⟨_, _, _, bytes, vs, by simp, by simp, by simp, rfl, hr, rfl⟩
    · exact .field (f := f) (List.mem_append_right _ hw) (.self _)
  have ext : ∀ k : Nat, k < 2 ^ 32 → Attained b s!' "btrfs_extent_item"
      ([s!' "refs", s!' "generation", s!' "flags"] ++ List.replicate k s!' "inline_ref") := by
    intro k ha
    obtain ⟨bytes, vs, h1, h2, h3⟩ := blockRefs k
    refine ⟨struct_btrfs_extent_item, List.replicate 8 0 ++ List.replicate 8 0 ++ List.replicate 8 0 ++ bytes,
      ⟨s!' "btrfs_extent_item", none, [(s!' "refs", .int (le (List.replicate 8 0))),
        (s!' "generation", .int (le (List.replicate 8 0))), (s!' "flags", .int (le (List.replicate 8 0)))] ++ vs⟩, _, _,
      by simp [structs], ?_, ?_, .self _, ?_⟩
    · simp only [List.length_append, List.length_replicate]; omega
    · rw [C55_extent_item_iff b none _ (by simp only [List.length_append, List.length_replicate]; omega)]
      exact ⟨_, _, _, bytes, vs, by simp, by simp, by simp, rfl, h1, rfl⟩
    · simp only [List.map_append, h3]; rfl
  cases h with
  | @header r hr =>
    have : ∀ r ∈ abi, (r.name = s!' "btrfs_extent_item" ∧
        r.members.map Member.name ++ trailing r.name = [s!' "refs", s!' "generation", s!' "flags"]) ∨
        (zeroShows r.name r.size (r.members.map Member.name ++ trailing r.name) = true ∧ r.size < 2 ^ 64) := by
      decide +kernel
    rcases this r hr with ⟨h1, h2⟩ | ⟨h1, h2⟩
    · rw [h1, ← h1, h2, h1]; exact ext 0 (by decide)
    · exact zeroShows_sound h1 h2 b
  | onDisk =>
    refine ⟨struct_btrfs_file_extent_item, List.replicate 20 0 ++ [1] ++ List.replicate 32 0, ?_⟩
    have hl : (List.replicate 20 (0 : UInt8) ++ [1] ++ List.replicate 32 0).length < 2 ^ 64 := by simp
    have : ∃ sv, structFromBytes ⟨false⟩ struct_btrfs_file_extent_item none
        (List.replicate 20 0 ++ [1] ++ List.replicate 32 0) = .ok sv ∧ sv.name = s!' "btrfs_file_extent_item" ∧
        sv.fields.map Prod.fst = ([s!' "generation", s!' "ram_bytes", s!' "compression", s!' "encryption",
          s!' "other_encoding", s!' "type"] ++ extentOnDisk.map Member.name) := ⟨_, rfl, rfl, rfl⟩
    obtain ⟨sv, h1, h2, h3⟩ := this
    have hm : struct_btrfs_file_extent_item ∈ structs := by simp [structs]
    refine ⟨sv, sv.key, sv.fields, hm, hl, ?_, ?_, h3⟩
    · rw [structFromBytes_iff b _ none _ hl (structs_wellFormed _ hm)]
      exact (structFromBytes_iff _ _ none _ hl (structs_wellFormed _ hm) sv).1 h1
    · rw [← h2]; exact .self _
  | extent k =>
    simp only [List.length_append, List.length_replicate, List.length_cons, List.length_nil] at ha
    exact ext k (by omega)
  | dataRef =>
    exact ref _ _ (.dataRef (root := List.replicate 8 0) (oid := List.replicate 8 0) (off := List.replicate 8 0)
      (count := List.replicate 4 0) (by simp) (by simp) (by simp) (by simp) .nil) (by simp) _ _ (List.mem_cons_self ..) _ _ _ rfl
  | sharedDataRef =>
    exact ref _ _ (.sharedDataRef (off := List.replicate 8 0) (count := List.replicate 4 0) (by simp) (by simp) .nil) (by simp)
      _ _ (List.mem_cons_self ..) _ _ _ rfl
  | blockRef =>
    exact ref _ _ (.blockRef (ty := 176) (off := List.replicate 8 0) (.inl rfl) (by simp) .nil) (by simp)
      _ _ (List.mem_cons_self ..) _ _ _ rfl
  | searchKey => exact zeroShows_sound (size := 50) (by decide +kernel) (by decide) b
  | usage => exact zeroShows_sound (size := 8) (by decide +kernel) (by decide) b
  | limit => exact zeroShows_sound (size := 8) (by decide +kernel) (by decide) b

/-! ### cases -/

/-- a struct's name and the names of its fields -/
def formOf : R Value → Option (Str × List Str)
  | .ok (.struct n _ fs) => some (n, fs.map Prod.fst)
  | _ => none

/-- a session that puts a string into a field of a key and then tries to give it a new field -/
def keyTicks : List LiveTick :=
  [⟨id, .steady demo.host, .line s!' "k = key(1, 2, 3, 4); k.min_type = \"x\"; l = hist() + k + k; l[1].max_type = l;"⟩,
   ⟨id, .steady demo.host, .line s!' "k.nope = 1;"⟩]

/-- the value of an expression after that session -/
def inKeys (e : Expr) : R Value :=
  (T.live (α := R Value) demo.fuel (.steady demo.host) (evalExprT demo (afterwards demo none keyTicks) e) 0).result

def keyFieldNames : List Str := [s!' "min_objectid", s!' "max_objectid", s!' "min_type", s!' "max_type", s!' "min_offset",
  s!' "max_offset", s!' "min_transid", s!' "max_transid"]

theorem inKeys_k : formOf (inKeys (.ident s!' "k")) = some (s!' "_btrfs_ioctl_search_key", keyFieldNames) := by decide +kernel

example : formOf (inKeys (.index (.field (.index (.ident s!' "l") (.int 1)) (.ident s!' "max_type")) (.int 0))) =
    some (s!' "_btrfs_ioctl_search_key", keyFieldNames) := by decide +kernel

/-- the hypotheses of `C99_access`: `k.min_type` is there and `k.nope` is not -/
example : (∃ v, inKeys (.field (.ident s!' "k") (.ident s!' "min_type")) = .ok v) ∧
    ¬ ∃ v, inKeys (.field (.ident s!' "k") (.ident s!' "nope")) = .ok v := by
  have h := inKeys_k
  unfold formOf at h
  split at h
  · rename_i n k fs hv
    simp only [Option.some.injEq, Prod.mk.injEq] at h
    obtain ⟨rfl, hfs⟩ := h
    have := C99_access demo none keyTicks (.steady demo.host) (.ident s!' "k") 0 _ k fs _ hv (by decide +kernel) .searchKey
    exact ⟨(this _).2 (by decide +kernel), fun hn => absurd ((this _).1 hn) (by decide +kernel)⟩
  · simp at h

/-- the form of a variable of a state -/
def varForm (st : State) (x : Str) : Option (Str × List Str) :=
  match st.vars.get x with
  | some v => formOf (.ok v)
  | none => none

/-- assigning to the variable itself is another matter: it may become anything -/
example : varForm (afterwards demo none [⟨id, .steady demo.host, .line s!' "k = key(1, 2, 3, 4); k = 1;"⟩]) s!' "k" = none ∧
    varForm (afterwards demo none [⟨id, .steady demo.host, .line s!' "k = key(1, 2, 3, 4); k.min_type = key(1, 2, 3, 4);"⟩])
      s!' "k" = some (s!' "_btrfs_ioctl_search_key", keyFieldNames) := by
  decide +kernel

/-- a struct with other fields than it should have is not `Shaped` -/
example : ¬ Shaped (.struct s!' "_btrfs_ioctl_search_key" none [(s!' "min_objectid", .int 1)]) := fun h => by
  have := C99_same_fields (h _ _ _ (.self _)) .searchKey (by decide +kernel)
  simp at this

end Btrd
