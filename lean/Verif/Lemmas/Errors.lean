/-
Which failures an evaluation can end in.
-/
import Verif.Lemmas.Good
import Verif.Lemmas.Analyzer
import Verif.Props.Hist
import Verif.Props.Control
import Verif.Props.Cast

namespace Btrd
open Spec

/-- every failure of the computation is in `P` -/
def Only {α : Type} (P : Fail → Prop) (r : R α) : Prop := ∀ f, r = .error f → P f

/-- errors other than "unknown variable" and "unhandled control flow" -/
@[simp] def Err.ordinary : Err → Bool
  | .unknownVar _ => false
  | .controlFlow => false
  | _ => true

/-- the failures in `P` include every ordinary error, and not terminating -/
structure Ordinary (P : Fail → Prop) : Prop where
  err : ∀ e, e.ordinary = true → P (.err e)
  diverge : P .diverge

/-- the failures in `P` include every ordinary error -/
structure Errs (P : Fail → Prop) : Prop where
  err : ∀ e, e.ordinary = true → P (.err e)

theorem Ordinary.errs {P : Fail → Prop} (h : Ordinary P) : Errs P := ⟨h.err⟩
instance {P : Fail → Prop} : CoeOut (Ordinary P) (Errs P) := ⟨Ordinary.errs⟩

section
variable {α β : Type} {P : Fail → Prop}

theorem only_ok (a : α) : Only P (.ok a) := by intro f h; simp at h

theorem only_error {f : Fail} (h : P f) : Only P (.error f : R α) := by
  intro g hg; simp only [Except.error.injEq] at hg; rwa [← hg]

theorem only_bind {x : R α} {g : α → R β} (h : Only P x) (hg : ∀ a, x = .ok a → Only P (g a)) : Only P (x >>= g) := by
  cases x with
  | ok a => exact hg a rfl
  | error f => exact only_error (h f rfl)

theorem Only.error {x : R α} (h : Only P x) {f : Fail} (hf : x = .error f) : P f := h f hf

variable (hP : Errs P)
include hP

theorem only_err (e : Err) (h : e.ordinary = true) : Only P (R.err e : R α) := only_error (hP.err e h)

theorem only_ensure (c : Bool) (e : Err) (h : e.ordinary = true) : Only P (ensure c e) := by
  unfold ensure; split
  · exact only_ok _
  · exact only_err hP _ h

theorem only_orErr (o : Option α) (e : Err) (h : e.ordinary = true) : Only P (orErr o e) := by
  unfold orErr; split
  · exact only_ok _
  · exact only_err hP _ h

theorem only_asInteger (v : Value) : Only P v.asInteger := by
  cases v <;> first | exact only_ok _ | exact only_err hP _ (by simp)

theorem only_asBoolean (v : Value) : Only P v.asBoolean := by
  cases v <;> first | exact only_ok _ | exact only_err hP _ (by simp)

theorem only_asVec (v : Value) : Only P v.asVec := by
  cases v <;> first | exact only_ok _ | exact only_err hP _ (by simp)

theorem only_asStruct (v : Value) : Only P v.asStruct := by
  cases v <;> first | exact only_ok _ | exact only_err hP _ (by simp)

theorem only_asFunction (v : Value) : Only P v.asFunction := by
  cases v <;> first | exact only_ok _ | exact only_err hP _ (by simp)

theorem only_asString (b : Bool) (v : Value) : Only P (v.asString b) := by
  cases v <;> simp only [Value.asString]
  case str s =>
    unfold fromAscii; split
    · exact only_ok _
    · exact only_err hP _ (by simp)
  all_goals exact only_err hP _ (by simp)

theorem only_tryUnsigned (n : Nat) (x : Int) : Only P (tryUnsigned n x) := by
  unfold tryUnsigned
  split
  · split
    · exact only_ok _
    · exact only_err hP _ (by simp)
  · exact only_err hP _ (by simp)

theorem only_checked {l : Int} {op : Str} {r : Int} (x : Int) : Only P (checkedI128 (.overflow l op r) x) := by
  unfold checkedI128; split
  · exact only_ok _
  · exact only_err hP _ (by simp)

theorem only_intOp {f : Int → Int → R Value} (hf : ∀ i j, Only P (f i j)) {l r : R Value} (hl : Only P l)
    (hr : Only P r) : Only P (intOp f l r) :=
  only_bind hl fun _ _ => only_bind (only_asInteger hP _) fun _ _ => only_bind hr fun _ _ =>
    only_bind (only_asInteger hP _) fun _ _ => hf _ _

theorem only_binop (op : BinOp) {l r : R Value} (hl : Only P l) (hr : Only P r) : Only P (binop op l r) := by
  cases op
  case plus =>
    refine only_bind hl fun a _ => only_bind hr fun b _ => ?_
    unfold plusOp
    split
    · exact only_checked hP _
    · exact only_ok _
    · exact only_ok _
    · exact only_err hP _ (by simp)
  case minus => exact only_intOp hP (fun _ _ => only_checked hP _) hl hr
  case mul => exact only_intOp hP (fun _ _ => only_checked hP _) hl hr
  case div =>
    refine only_intOp hP (fun i j => ?_) hl hr
    unfold divI128; split
    · exact only_err hP _ (by simp)
    · exact only_checked hP _
  case mod =>
    refine only_intOp hP (fun i j => ?_) hl hr
    unfold remI128; split
    · exact only_err hP _ (by simp)
    · split
      · exact only_ok _
      · exact only_err hP _ (by simp)
  case bor => exact only_intOp hP (fun _ _ => only_ok _) hl hr
  case band => exact only_intOp hP (fun _ _ => only_ok _) hl hr
  case bxor => exact only_intOp hP (fun _ _ => only_ok _) hl hr
  case shl =>
    refine only_intOp hP (fun i j => only_bind (only_tryUnsigned hP _ _) fun n _ => ?_) hl hr
    split
    · exact only_ok _
    · exact only_err hP _ (by simp)
  case shr =>
    refine only_intOp hP (fun i j => only_bind (only_tryUnsigned hP _ _) fun n _ => ?_) hl hr
    split
    · exact only_ok _
    · exact only_err hP _ (by simp)
  case lt => exact only_intOp hP (fun _ _ => only_ok _) hl hr
  case le => exact only_intOp hP (fun _ _ => only_ok _) hl hr
  case gt => exact only_intOp hP (fun _ _ => only_ok _) hl hr
  case ge => exact only_intOp hP (fun _ _ => only_ok _) hl hr
  case eq => exact only_bind hl fun _ _ => only_bind hr fun _ _ => only_ok _
  case ne => exact only_bind hl fun _ _ => only_bind hr fun _ _ => only_ok _
  case lor =>
    refine only_bind hl fun _ _ => only_bind (only_asBoolean hP _) fun b _ => ?_
    cases b
    · exact only_bind hr fun _ _ => only_bind (only_asBoolean hP _) fun _ _ => only_ok _
    · exact only_ok _
  case land =>
    refine only_bind hl fun _ _ => only_bind (only_asBoolean hP _) fun b _ => ?_
    cases b
    · exact only_ok _
    · exact only_bind hr fun _ _ => only_bind (only_asBoolean hP _) fun _ _ => only_ok _

omit hP in
theorem only_negI128 {b : Build} (hb : P .panic ∨ b.ovfChecks = false) (x : Int) : Only P (negI128 b x) := by
  unfold negI128
  split
  · split
    · rename_i h
      rcases hb with hb | hb
      · exact only_error hb
      · simp [hb] at h
    · exact only_ok _
  · exact only_ok _

omit hP in
theorem only_usizeAdd {b : Build} (hb : P .panic ∨ b.ovfChecks = false) (x y : Nat) : Only P (usizeAdd b x y) := by
  unfold usizeAdd
  split
  · exact only_ok _
  · split
    · rename_i h
      rcases hb with hb | hb
      · exact only_error hb
      · simp [hb] at h
    · exact only_ok _

theorem only_unop {b : Build} (hb : P .panic ∨ b.ovfChecks = false) (op : UnOp) {r : R Value} (hr : Only P r) :
    Only P (unop b op r) := by
  cases op
  case bitNot => exact only_bind hr fun _ _ => only_bind (only_asInteger hP _) fun _ _ => only_ok _
  case not =>
    refine only_bind hr fun v _ => ?_
    cases v <;> first | exact only_ok _ | exact only_err hP _ (by simp)
  case minus =>
    exact only_bind hr fun _ _ => only_bind (only_asInteger hP _) fun _ _ =>
      only_bind (only_negI128 hb _) fun _ _ => only_ok _

theorem only_decode (b : Build) {s : StructDef} (hs : s ∈ structs) (key : Option (Int × Int × Int)) {bytes : Bytes}
    (h : bytes.length < 2 ^ 63) : Only P (structFromBytes b s key bytes) := by
  rcases structFromBytes_returns b s hs key bytes h with ⟨a, h⟩ | ⟨e, h, he⟩
  · rw [h]; exact only_ok _
  · rw [h]
    refine only_err hP _ ?_
    cases e <;> first | rfl | exact he.elim

omit hP in
theorem usizeAdd_le {b : Build} {x y z : Nat} (h : usizeAdd b x y = .ok z) : z ≤ x + y := by
  unfold usizeAdd at h
  split at h
  · simp only [Except.ok.injEq] at h; omega
  · split at h
    · simp at h
    · simp only [Except.ok.injEq] at h; rw [← h]; exact Nat.mod_le _ _

theorem only_castOp' {b : Build} (fs : Option Fs) {ty : Expr}
    (hty : P .panic ∨ ∃ n, ty = .ident n ∧ ∃ s ∈ structs, s.name = n) {r : R Value} (hr : Only P r)
    (hb : ∀ i s, r = .ok (.int i) → 0 ≤ i → s ∈ structs → ty = .ident s.name →
      Only P (usizeAdd b (asUsize i) (if s.size = 0 then 1024 else s.size))) :
    Only P (castOp b fs ty r) := by
  unfold castOp
  refine only_bind hr fun v hv => only_bind (only_asInteger hP _) fun i hi => ?_
  split
  · exact only_err hP _ (by simp)
  · dsimp only
    split
    · rename_i name
      split
      · rename_i hn
        rcases hty with hty | ⟨n, hn', s, hs, rfl⟩
        · exact only_error hty
        · injection hn' with hn'
          subst hn'
          rw [findStruct_self s hs] at hn
          simp at hn
      · rename_i s hs
        split
        · exact only_err hP _ (by simp)
        · rename_i f
          refine only_bind (hb i s ?_ (by omega) (findStruct_mem' hs) ?_) fun stop h1 => only_bind ?_ fun bytes h2 =>
            only_bind (only_decode hP b (findStruct_mem' hs) none ?_) fun _ _ => only_ok _
          · rw [hv]; cases v <;> simp_all [Value.asInteger, R.err]
          · have := List.find?_some hs; simp only [beq_iff_eq] at this; rw [this]
          · unfold Fs.getBytes
            split
            · split
              · exact only_ok _
              · exact only_err hP _ (by simp)
            · exact only_err hP _ (by simp)
          · have h3 := usizeAdd_le h1
            have h4 := structs_small s (findStruct_mem' hs)
            unfold Fs.getBytes at h2
            split at h2
            · split at h2
              · simp only [Except.ok.injEq] at h2
                rw [← h2]
                simp only [List.length_take, List.length_drop]
                split at h3 <;> omega
              · simp at h2
            · simp at h2
    · rename_i hne
      rcases hty with hty | ⟨n, hn', -⟩
      · exact only_error hty
      · exact absurd hn' (hne n)

theorem only_castOp {b : Build} (hb : P .panic ∨ b.ovfChecks = false) (fs : Option Fs) {ty : Expr}
    (hty : P .panic ∨ ∃ n, ty = .ident n ∧ ∃ s ∈ structs, s.name = n) {r : R Value} (hr : Only P r) :
    Only P (castOp b fs ty r) :=
  only_castOp' hP fs hty hr fun _ _ _ _ _ _ => only_usizeAdd hb _ _

theorem only_field (s : StructVal) (n : Str) : Only P (s.field n) := only_orErr hP _ _ (by simp)

theorem only_intArgs : ∀ {args : List (R Value)}, (∀ r ∈ args, Only P r) → Only P (intArgs args) := by
  intro args
  induction args with
  | nil => intro _; exact only_ok _
  | cons r rs ih =>
    intro h
    simp only [List.mem_cons, forall_eq_or_imp] at h
    exact only_bind h.1 fun _ _ => only_bind (only_asInteger hP _) fun _ _ => only_bind (ih h.2) fun _ _ => only_ok _

omit hP in
theorem intArgs_length : ∀ {args : List (R Value)} {vs : List Value}, intArgs args = .ok vs → vs.length = args.length := by
  intro args
  induction args with
  | nil => intro vs h; simp only [intArgs, Except.ok.injEq] at h; subst h; rfl
  | cons r rs ih =>
    intro vs h
    simp only [intArgs] at h
    obtain ⟨v, h1, h⟩ := bind_ok h
    obtain ⟨i, h2, h⟩ := bind_ok h
    obtain ⟨ws, h3, h⟩ := bind_ok h
    simp only [Except.ok.injEq] at h; subst h
    simp [ih h3]

theorem only_setField {what : Str} (n : Str) (v : Value) : ∀ fs, Only P (setField what fs n v) := by
  intro fs
  induction fs with
  | nil => exact only_err hP _ (by simp)
  | cons f fs ih =>
    obtain ⟨m, w⟩ := f
    unfold setField
    split
    · exact only_ok _
    · split
      · exact only_ok _
      · rename_i h; exact only_error (ih _ h)

theorem only_setFields {what : Str} : ∀ ups fs, Only P (setFields what fs ups) := by
  intro ups
  induction ups with
  | nil => intro fs; exact only_ok _
  | cons u ups ih =>
    intro fs
    obtain ⟨n, v⟩ := u
    exact only_bind (only_setField hP _ _ _) fun _ _ => ih _

omit hP in
theorem ensure_inv {c : Bool} {e : Err} {u : Unit} (h : ensure c e = .ok u) : c = true := by
  unfold ensure at h; split at h
  · assumption
  · simp at h

theorem only_keyFn (b : Build) {args : List (R Value)} (h : ∀ r ∈ args, Only P r) : Only P (keyFn b args) := by
  unfold keyFn
  refine only_bind (only_ensure hP _ _ (by simp)) fun _ h0 => only_bind (only_intArgs hP h) fun vals h1 =>
    only_bind (by rw [searchKey_zero]; exact only_ok _) fun s _ => ?_
  have h0 := ensure_inv h0
  have h1 := intArgs_length h1
  simp only [beq_iff_eq] at h0
  rw [h0] at h1
  split
  · exact only_bind (only_setFields hP _ _) fun _ _ => only_ok _
  · rename_i hne
    match vals, h1 with
    | [a, b, c, d], _ => exact absurd rfl (hne a b c d)

theorem only_keyArg (k : StructVal) (n : Str) (bits : Nat) : Only P (keyArg k n bits) :=
  only_bind (only_field hP _ _) fun _ _ => only_bind (only_asInteger hP _) fun _ _ => only_tryUnsigned hP _ _

theorem only_searchArgs (t : Int) (k : StructVal) : Only P (searchArgs t k) := by
  unfold searchArgs
  refine only_bind (only_tryUnsigned hP _ _) fun _ _ => ?_
  iterate 8 refine only_bind (only_keyArg hP _ _ _) fun _ _ => ?_
  exact only_ok _

theorem only_extractItems (buf : Nat → UInt8) : ∀ n o ret c, Only P (extractItems buf n o ret c) := by
  intro n
  induction n with
  | zero => intro o ret c; exact only_ok _
  | succ n ih =>
    intro o ret c
    unfold extractItems
    split
    · dsimp only
      split
      · split
        · exact ih _ _ _
        · exact ih _ _ _
      · exact only_err hP _ (by simp)
    · exact only_err hP _ (by simp)

omit hP in
/-- items are never dropped, and a non-empty reply leaves at least one -/
theorem extractItems_grows (buf : Nat → UInt8) : ∀ n o ret c ret' c', extractItems buf n o ret c = .ok (ret', c') →
    ret.length ≤ ret'.length ∧ (n ≠ 0 → ret' ≠ []) := by
  intro n
  induction n with
  | zero =>
    intro o ret c ret' c' h
    simp only [extractItems, Except.ok.injEq, Prod.mk.injEq] at h
    rw [h.1]; simp
  | succ n ih =>
    intro o ret c ret' c' h
    unfold extractItems at h
    split at h
    · dsimp only at h
      split at h
      · split at h
        · rename_i hany
          have := ih _ _ _ _ _ h
          refine ⟨this.1, fun _ hn => ?_⟩
          subst hn
          have h0 : ret = [] := List.length_eq_zero_iff.mp (by simpa using this.1)
          subst h0
          simp at hany
        · have := ih _ _ _ _ _ h
          simp only [List.length_append, List.length_cons, List.length_nil] at this
          refine ⟨by omega, fun _ hn => ?_⟩
          subst hn
          simp at this
      · simp at h
    · simp at h

omit hP in
theorem only_searchLoop (hP : Ordinary P) (k : Kernel) (retry : Bool) : ∀ fuel i a ret c, Only P (searchLoop k retry fuel i a ret c) := by
  intro fuel
  induction fuel with
  | zero => intro i a ret c; exact only_error hP.diverge
  | succ fuel ih =>
    intro i a ret c
    unfold searchLoop
    split
    · exact only_err hP _ (by simp)
    · rename_i nr buf _
      split
      · rename_i h; exact only_error (only_extractItems hP _ _ _ _ _ _ h)
      · rename_i ret' c' hx
        split
        · exact only_ok _
        · rename_i hc
          have hne := (extractItems_grows _ _ _ _ _ _ _ hx).2 (by rintro rfl; simp at hc)
          cases ret' with
          | nil => exact absurd rfl hne
          | cons it its =>
            simp only [largestKey]
            split
            · split
              · exact ih _ _ _ _
              · exact only_err hP _ (by simp)
            · exact only_err hP _ (by simp)

omit hP in
theorem only_search (hP : Ordinary P) (fuel : Nat) (fs : Fs) (a : SearchArgs) : Only P (fs.search fuel a) := by
  unfold Fs.search
  split
  · exact only_err hP _ (by simp)
  · dsimp only
    split
    · rename_i h; exact only_error (only_searchLoop hP _ _ _ _ _ _ _ _ h)
    · split
      · exact only_err hP _ (by simp)
      · exact only_ok _

theorem only_decodeItems (b : Build) : ∀ {items : List Item}, (∀ it ∈ items, GoodItem it) →
    Only P (decodeItems b items) := by
  intro items
  induction items with
  | nil => intro _; exact only_ok _
  | cons it its ih =>
    intro hg
    obtain ⟨hd, bytes⟩ := it
    simp only [List.mem_cons, forall_eq_or_imp] at hg
    unfold decodeItems
    split
    · rename_i s hs
      refine only_bind (only_decode hP b (structForKey_mem hs) _ ?_) fun _ _ =>
        only_bind (ih hg.2) fun _ _ => only_ok _
      have := hg.1.2.2.2
      simp only at this; omega
    · exact ih hg.2

omit hP in
theorem only_searchFn (hP : Ordinary P) (cfg : Cfg) (fs : Option Fs) {args : List (R Value)} (h : ∀ r ∈ args, Only P r) :
    Only P (searchFn cfg fs args) := by
  unfold searchFn
  refine only_bind (only_ensure hP _ _ (by simp)) fun _ h0 => ?_
  have h0 := ensure_inv h0
  simp only [beq_iff_eq] at h0
  match args, h0, h with
  | [a0, a1], _, h =>
    simp only [List.mem_cons, forall_eq_or_imp, List.not_mem_nil, false_implies, implies_true, and_true] at h
    refine only_bind h.1 fun _ _ => only_bind (only_asInteger hP _) fun _ _ => only_bind h.2 fun _ _ =>
      only_bind (only_asStruct hP _) fun _ _ => only_bind (only_ensure hP _ _ (by simp)) fun _ _ => ?_
    split
    · exact only_err hP _ (by simp)
    · exact only_bind (only_searchArgs hP _ _) fun _ _ => only_bind (only_search hP _ _ _) fun _ hs =>
        only_bind (only_decodeItems hP _ (search_good hs)) fun _ _ => only_ok _

theorem only_arg1 {msg : Str} {args : List (R Value)} (h : ∀ r ∈ args, Only P r) : Only P (arg1 msg args) := by
  unfold arg1
  refine only_bind (only_ensure hP _ _ (by simp)) fun _ h0 => ?_
  have h0 := ensure_inv h0
  simp only [beq_iff_eq] at h0
  match args, h0, h with
  | [a], _, h => exact h a (by simp)

theorem only_keyofFn (b : Build) {args : List (R Value)} (h : ∀ r ∈ args, Only P r) : Only P (keyofFn b args) := by
  unfold keyofFn
  refine only_bind (only_arg1 hP h) fun _ _ => only_bind (only_asStruct hP _) fun _ _ => ?_
  split
  · refine only_bind (by rw [key_zero]; exact only_ok _) fun _ _ => only_bind (only_setFields hP _ _) fun _ _ => only_ok _
  · exact only_err hP _ (by simp)

omit hP in
theorem only_display (v : Value) : Only P v.display := by
  obtain ⟨t, h⟩ := display_total v
  rw [h]; exact only_ok _

omit hP in
theorem only_callFn (hP : Ordinary P) (cfg : Cfg) (fs : Option Fs) {f : R Value} (hf : Only P f) {args : List (R Value)}
    (h : ∀ r ∈ args, Only P r) : Only P (callFn cfg fs f args) := by
  unfold callFn
  refine only_bind hf fun _ _ => only_bind (only_asFunction hP _) fun fn _ => ?_
  cases fn
  case key => exact only_keyFn hP _ h
  case search => exact only_searchFn hP _ _ h
  case typeOf => exact only_bind (only_arg1 hP h) fun _ _ => only_ok _
  case keyOf => exact only_keyofFn hP _ h
  case len =>
    refine only_bind (only_arg1 hP h) fun _ _ => only_bind (only_asVec hP _) fun _ _ => ?_
    split
    · exact only_ok _
    · exact only_err hP _ (by simp)
  case hist => exact only_bind (only_ensure hP _ _ (by simp)) fun _ _ => only_ok _
  case str =>
    refine only_bind (only_arg1 hP h) fun v _ => ?_
    split
    · exact only_ok _
    · exact only_bind (only_display _) fun _ _ => only_ok _

theorem only_fieldOp {r : R Value} (hr : Only P r) (f : Expr) : Only P (fieldOp r f) := by
  refine only_bind hr fun _ _ => only_bind (only_asStruct hP _) fun _ _ => ?_
  split
  · exact only_field hP _ _
  · exact only_err hP _ (by simp)

theorem only_indexOp {r i : R Value} (hr : Only P r) (hi : Only P i) : Only P (indexOp r i) :=
  only_bind hr fun _ _ => only_bind (only_asVec hP _) fun _ _ => only_bind hi fun _ _ =>
    only_bind (only_asInteger hP _) fun _ _ => only_bind (only_tryUnsigned hP _ _) fun _ _ =>
      only_orErr hP _ _ (by simp)

/-- what is known about an expression before it is evaluated: it is well-formed, unless panics are
tolerated; and the variables it reads exist, unless their absence is tolerated -/
def Fine (P : Fail → Prop) (vs : Vars Value) (e : Expr) : Prop :=
  (P .panic ∨ e.Sound) ∧ ∀ x ∈ e.uses, defined vs x ∨ P (.err (.unknownVar x))

omit hP in
mutual
theorem only_evalExpr (hP : Ordinary P) (cfg : Cfg) (hb : P .panic ∨ cfg.build.ovfChecks = false) (st : State) :
    ∀ e : Expr, Fine P st.vars e → Only P (evalExpr cfg st e)
  | .ident x, h => by
    simp only [evalExpr, orErr]
    split
    · exact only_ok _
    · rename_i hx
      rcases h.2 x (by simp [Expr.uses]) with h | h
      · exact absurd hx h
      · exact only_error h
  | .int _, _ => by simp only [evalExpr]; exact only_ok _
  | .bool _, _ => by simp only [evalExpr]; exact only_ok _
  | .str _, _ => by simp only [evalExpr]; exact only_ok _
  | .paren e, h => by
    simp only [evalExpr]
    exact only_evalExpr hP cfg hb st e ⟨h.1.imp_right (by simp [Expr.Sound]), by simpa [Expr.uses] using h.2⟩
  | .field e f, h => by
    simp only [evalExpr]
    exact only_fieldOp hP (only_evalExpr hP cfg hb st e ⟨h.1.imp_right (fun h => h.2), by simpa [Expr.uses] using h.2⟩) f
  | .index e i, h => by
    simp only [evalExpr]
    have h2 := h.2
    simp only [Expr.uses, List.mem_append] at h2
    exact only_indexOp hP (only_evalExpr hP cfg hb st e ⟨h.1.imp_right (fun h => h.1), fun x hx => h2 x (.inl hx)⟩)
      (only_evalExpr hP cfg hb st i ⟨h.1.imp_right (fun h => h.2), fun x hx => h2 x (.inr hx)⟩)
  | .call f args, h => by
    simp only [evalExpr]
    have h2 := h.2
    simp only [Expr.uses, List.mem_append] at h2
    exact only_callFn hP cfg _ (only_evalExpr hP cfg hb st f ⟨h.1.imp_right (fun h => h.1), fun x hx => h2 x (.inl hx)⟩)
      (only_evalArgs hP cfg hb st args (h.1.imp_right (fun h => h.2)) fun x hx => h2 x (.inr hx))
  | .bin op l r, h => by
    simp only [evalExpr]
    have h2 := h.2
    simp only [Expr.uses, List.mem_append] at h2
    exact only_binop hP op (only_evalExpr hP cfg hb st l ⟨h.1.imp_right (fun h => h.1), fun x hx => h2 x (.inl hx)⟩)
      (only_evalExpr hP cfg hb st r ⟨h.1.imp_right (fun h => h.2), fun x hx => h2 x (.inr hx)⟩)
  | .un op e, h => by
    simp only [evalExpr]
    exact only_unop hP hb op (only_evalExpr hP cfg hb st e ⟨h.1.imp_right (by simp [Expr.Sound]), by simpa [Expr.uses] using h.2⟩)
  | .cast ty e, h => by
    simp only [evalExpr]
    exact only_castOp hP hb _ (h.1.imp_right (fun h => h.1))
      (only_evalExpr hP cfg hb st e ⟨h.1.imp_right (fun h => h.2), by simpa [Expr.uses] using h.2⟩)
theorem only_evalArgs (hP : Ordinary P) (cfg : Cfg) (hb : P .panic ∨ cfg.build.ovfChecks = false) (st : State) :
    ∀ es : List Expr, P .panic ∨ SoundL es → (∀ x ∈ usesL es, defined st.vars x ∨ P (.err (.unknownVar x))) →
      ∀ r ∈ evalArgs cfg st es, Only P r
  | [], _, _ => by simp [evalArgs]
  | e :: es, h1, h2 => by
    simp only [usesL, List.mem_append] at h2
    simp only [evalArgs, List.mem_cons, forall_eq_or_imp]
    exact ⟨only_evalExpr hP cfg hb st e ⟨h1.imp_right (fun h => h.1), fun x hx => h2 x (.inl hx)⟩,
      only_evalArgs hP cfg hb st es (h1.imp_right (fun h => h.2)) fun x hx => h2 x (.inr hx)⟩
end

theorem only_modifyNth {i : Int} {k : Nat} {f : Value → R Value} (hf : ∀ v, Only P (f v)) :
    ∀ vs n, Only P (modifyNth (.indexRange i k) f vs n) := by
  intro vs
  induction vs with
  | nil => intro n; exact only_err hP _ (by simp)
  | cons v vs ih =>
    intro n
    cases n with
    | zero => exact only_bind (hf v) fun _ _ => only_ok _
    | succ n => exact only_bind (ih n) fun _ _ => only_ok _

theorem only_modifyField {what : Str} {f : Value → R Value} (hf : ∀ v, Only P (f v)) (name : Str) :
    ∀ fs, Only P (modifyField what f fs name) := by
  intro fs
  induction fs with
  | nil => exact only_err hP _ (by simp)
  | cons p fs ih =>
    obtain ⟨n, v⟩ := p
    unfold modifyField
    split
    · exact only_bind (hf v) fun _ _ => only_ok _
    · exact only_bind ih fun _ _ => only_ok _

omit hP in
theorem only_modify {f : Value → R Value} (hf : ∀ v, Only P (f v)) {vs : Vars Value} {x : Str} {r : R (Vars Value)}
    (h : vs.modify f x = some r) : Only P r := by
  rcases @modify_spec Value f vs x with ⟨_, h2⟩ | ⟨v, e, _, h2, h3⟩ | ⟨v, v', w, h1, h2, h3, h4, h5⟩
  · simp [h2] at h
  · rw [h3] at h; injection h with h; subst h
    exact only_error (hf v _ h2)
  · rw [h3] at h; injection h with h; subst h
    exact only_ok _

omit hP in
theorem only_modifyLhs (hP : Ordinary P) (cfg : Cfg) (hb : P .panic ∨ cfg.build.ovfChecks = false) (st : State) :
    ∀ (e : Expr) (f : Value → R Value), (∀ v, Only P (f v)) → Fine P st.vars e → Only P (modifyLhs cfg st e f)
  | .ident x, f, hf, h => by
    simp only [modifyLhs]
    split
    · rename_i hm; exact only_modify hf hm
    · rename_i hm
      rcases h.2 x (by simp [Expr.uses]) with h | h
      · rcases @modify_spec Value f st.vars x with ⟨h1, h2⟩ | ⟨v, e, _, h2, h3⟩ | ⟨v, v', w, h1, h2, h3, h4, h5⟩
        · exact absurd h1 h
        · rw [h3] at hm; simp at hm
        · rw [h3] at hm; simp at hm
      · exact only_error h
  | .field e g, f, hf, h => by
    simp only [modifyLhs]
    split
    · refine only_modifyLhs hP cfg hb st e _ (fun v => ?_) ⟨h.1.imp_right (fun h => h.2), by simpa [Expr.uses] using h.2⟩
      split
      · exact only_bind (only_modifyField hP hf _ _) fun _ _ => only_ok _
      · exact only_err hP _ (by simp)
    · exact only_err hP _ (by simp)
  | .index e i, f, hf, h => by
    simp only [modifyLhs]
    have h2 := h.2
    simp only [Expr.uses, List.mem_append] at h2
    refine only_bind (only_evalExpr hP cfg hb st i ⟨h.1.imp_right (fun h => h.2), fun x hx => h2 x (.inr hx)⟩) fun _ _ =>
      only_bind (only_asInteger hP _) fun _ _ => ?_
    refine only_modifyLhs hP cfg hb st e _ (fun v => ?_) ⟨h.1.imp_right (fun h => h.1), fun x hx => h2 x (.inl hx)⟩
    split
    · exact only_bind (only_tryUnsigned hP _ _) fun _ _ => only_bind (only_modifyNth hP hf _ _) fun _ _ => only_ok _
    · exact only_err hP _ (by simp)
  | .int _, _, _, _ => by simp only [modifyLhs]; exact only_err hP _ (by simp)
  | .bool _, _, _, _ => by simp only [modifyLhs]; exact only_err hP _ (by simp)
  | .str _, _, _, _ => by simp only [modifyLhs]; exact only_err hP _ (by simp)
  | .paren _, _, _, _ => by simp only [modifyLhs]; exact only_err hP _ (by simp)
  | .call _ _, _, _, _ => by simp only [modifyLhs]; exact only_err hP _ (by simp)
  | .bin _ _ _, _, _, _ => by simp only [modifyLhs]; exact only_err hP _ (by simp)
  | .un _ _, _, _, _ => by simp only [modifyLhs]; exact only_err hP _ (by simp)
  | .cast _ _, _, _, _ => by simp only [modifyLhs]; exact only_err hP _ (by simp)

omit hP in
theorem only_previousPower2 (hP : Ordinary P) (fuel : Nat) (x : Int) : Only P (previousPower2 fuel x) := by
  rcases previousPower2_only fuel x with ⟨q, h⟩ | h
  · rw [h]; exact only_ok _
  · rw [h]; exact only_error hP.diverge

theorem only_histInts : ∀ vec, Only P (histInts vec) := by
  intro vec
  rcases histInts_cases vec with ⟨vals, rfl⟩ | ⟨_, _, _, _, _, h⟩
  · rw [histInts_ints]; exact only_ok _
  · rw [h]; exact only_err hP _ (by simp)

omit hP in
theorem only_histBuckets (hP : Ordinary P) (fuel : Nat) (v : Int) (vs : List Int) : Only P (histBuckets fuel v vs) := by
  rcases histBuckets_only fuel v vs with ⟨q, h⟩ | h
  · rw [h]; exact only_ok _
  · rw [h]; exact only_error hP.diverge

omit hP in
theorem only_numBytes (hP : Ordinary P) (hp : P .panic) (b : Build) (fuel : Nat) (x : Int) : Only P (numBytesToPretty b fuel x) := by
  unfold numBytesToPretty
  refine only_bind (only_previousPower2 hP _ _) fun _ _ => ?_
  split
  · exact only_error hp
  · split
    · exact only_ok _
    · split
      · exact only_bind (only_negI128 (.inl hp) _) fun _ _ => only_ok _
      · exact only_ok _

omit hP in
theorem only_bucketLines (hP : Ordinary P) (hp : P .panic) (b : Build) (fuel total : Nat) : ∀ ks, Only P (bucketLines b fuel total ks) := by
  intro ks
  induction ks with
  | nil => exact only_ok _
  | cons k ks ih =>
    exact only_bind (only_bind (only_numBytes hP hp _ _ _) fun _ _ => only_bind (only_numBytes hP hp _ _ _) fun _ _ =>
      only_ok _) fun _ _ => only_bind ih fun _ _ => only_ok _

omit hP in
theorem only_asHist_panics (hP : Ordinary P) (hp : P .panic) (b : Build) (fuel : Nat) (vec : List Value) : Only P (asHist b fuel vec) := by
  unfold asHist
  refine only_bind (only_histInts hP _) fun vals _ => ?_
  split
  · exact only_ok _
  · exact only_bind (only_histBuckets hP _ _ _) fun _ _ => only_bucketLines hP hp _ _ _ _

omit hP in
theorem only_printText (hP : Ordinary P) (cfg : Cfg) (hb : P .panic ∨ cfg.build.ovfChecks = false) (v : Value)
    (hg : P .panic ∨ Good v) : Only P (printText cfg v) := by
  unfold printText
  split
  · rename_i vec
    rcases hg with hp | hg
    · exact only_asHist_panics hP hp _ _ _
    · rcases hb with hp | hb
      · exact only_asHist_panics hP hp _ _ _
      · intro f hf
        have h := only_asHist_panics (P := fun f => P f ∨ f = .panic)
          ⟨fun e he => .inl (hP.err e he), .inl hP.diverge⟩ (.inr rfl) cfg.build cfg.fuel vec f hf
        rcases h with h | rfl
        · exact h
        · exact absurd hf (C45_labels_never_panic _ _ _
            (fun i hi => good_int.1 (good_array.1 hg _ hi)) (by simp [hb]))
  · exact only_asString hP _ _
  · exact only_display _

end

/-! ### statements -/

mutual
theorem Stmt.allE_mono {Q Q' : Expr → Prop} (h : ∀ e, Q e → Q' e) : ∀ s : Stmt, s.AllE Q → s.AllE Q'
  | .assign _ _, hs => ⟨h _ hs.1, h _ hs.2⟩
  | .ite _ t f, hs => ⟨h _ hs.1, allE_mono h t hs.2.1, allE_mono h f hs.2.2⟩
  | .while _ b, hs => ⟨h _ hs.1, allE_mono h b hs.2⟩
  | .for _ _ b, hs => ⟨h _ hs.1, h _ hs.2.1, allE_mono h b hs.2.2⟩
  | .filesystem _, hs => h _ hs
  | .print _, hs => h _ hs
  | .expr _, hs => h _ hs
  | .brk, _ => trivial
  | .cont, _ => trivial
  | .help, _ => trivial
  | .quit, _ => trivial
theorem allE_mono {Q Q' : Expr → Prop} (h : ∀ e, Q e → Q' e) : ∀ p : List Stmt, allE Q p → allE Q' p
  | [], _ => trivial
  | s :: ss, hs => ⟨Stmt.allE_mono h s hs.1, allE_mono h ss hs.2⟩
end

/-- a statement that runs to its end has created its variable -/
theorem gains_defined {cfg : Cfg} (s : Stmt) (st : State) (hok : (evalStmt cfg s st).2 = .ok) :
    ∀ x ∈ s.gains, defined (evalStmt cfg s st).1.vars x := by
  intro x hx
  unfold Stmt.gains at hx
  split at hx
  · rename_i y r
    simp only [List.mem_singleton] at hx
    subst hx
    rw [evalStmt] at hok ⊢
    unfold evalAssign at hok ⊢
    split at hok
    · simp at hok
    · rename_i v hv
      simp only at hok ⊢
      split at hok
      · rename_i vs hvs
        simp only [hvs, defined_insert hvs]
        exact .inr (by simp)
      · simp at hok
  · simp at hx

/-- every failure of the execution is in `P` -/
def OnlyI (P : Fail → Prop) (r : IRes) : Prop := ∀ f, r = .fail f → P f

/-- what is known about the state -/
structure Ready (P : Fail → Prop) (D : Names) (st : State) : Prop where
  cover : ∀ x, D x → defined st.vars x ∨ P (.err (.unknownVar x))
  good : P .panic ∨ GoodVars st.vars
  ne : st.vars ≠ []

/-- what is known about each expression, whatever the variables -/
def Plain (P : Fail → Prop) (e : Expr) : Prop := P .panic ∨ e.Sound ∧ ∀ i ∈ e.literals, Fits i

section
variable {P : Fail → Prop} {cfg : Cfg}

theorem Ready.fine {D : Names} {st : State} (h : Ready P D st) {e : Expr} (he : Plain P e) (hu : ∀ x ∈ e.uses, D x) :
    Fine P st.vars e := ⟨he.imp_right (fun h => h.1), fun x hx => h.cover x (hu x hx)⟩

theorem Ready.after {D : Names} {st st' : State} (h : Ready P D st) (hg : Gained st.vars st'.vars)
    (h' : P .panic ∨ GoodVars st'.vars) : Ready P D st' :=
  ⟨fun x hx => (h.cover x hx).imp_left (gained_defined hg), h', gained_ne_nil hg h.ne⟩

theorem Ready.good_stmts {D : Names} {st : State} (h : Ready P D st) (p : List Stmt) (hp : allE (Plain P) p) :
    P .panic ∨ GoodVars (evalStmts cfg p st).1.vars := by
  by_cases hpan : P .panic
  · exact .inl hpan
  · right
    refine evalStmts_inv (good_closed cfg) p ?_ st (h.good.resolve_left hpan)
    exact allE_mono (fun e he => (he.resolve_left hpan).2) p hp

theorem Ready.good_stmt {D : Names} {st : State} (h : Ready P D st) (s : Stmt) (hp : s.AllE (Plain P)) :
    P .panic ∨ GoodVars (evalStmt cfg s st).1.vars := by
  by_cases hpan : P .panic
  · exact .inl hpan
  · right
    refine evalStmt_inv (good_closed cfg) s ?_ st (h.good.resolve_left hpan)
    exact Stmt.allE_mono (fun e he => (he.resolve_left hpan).2) s hp

theorem Ready.stmts {D : Names} {st : State} (h : Ready P D st) (p : List Stmt) (hp : allE (Plain P) p) :
    Ready P D (evalStmts cfg p st).1 :=
  h.after (evalStmts_rel (gained_closed cfg) p (allT_true p) st) (h.good_stmts p hp)

theorem Ready.push {D : Names} {st : State} (h : Ready P D st) : Ready P D { st with vars := st.vars.push } := by
  refine ⟨fun x hx => ?_, ?_, by simp [Vars.push]⟩
  · simp only [defined_push]; exact h.cover x hx
  · refine h.good.imp_right fun h => ?_
    simp only [Vars.push, GoodVars.cons]
    exact ⟨by simp [Scope.empty], h⟩

theorem Ready.insert {D : Names} {st : State} (h : Ready P D st) {n : Str} {v : Value} {vs : Vars Value}
    (hi : st.vars.insert n v = .ok vs) (hv : P .panic ∨ Good v) : Ready P (D.with [n]) { st with vars := vs } := by
  refine ⟨fun x hx => ?_, ?_, ?_⟩
  · simp only [defined_insert hi]
    rcases hx with hx | hx
    · exact (h.cover x hx).imp_left .inl
    · exact .inl (.inr hx)
  · rcases hv with hv | hv
    · exact .inl hv
    · exact h.good.imp_right fun h => h.insert hv hi
  · exact gained_ne_nil (insert_gained hi) h.ne

theorem Ready.weaken {D D' : Names} {st : State} (h : Ready P D st) (hd : ∀ x, D' x → D x) : Ready P D' st :=
  ⟨fun x hx => h.cover x (hd x hx), h.good, h.ne⟩

variable (hP : Ordinary P) (hb : P .panic ∨ cfg.build.ovfChecks = false)
include hP hb

omit hb in
theorem onlyI_write (st : State) (s : Str) : OnlyI P (st.write s).2 := by
  unfold State.write Sink.write
  intro f hf
  split at hf
  · simp at hf
  · rename_i heq
    split at heq
    · simp at heq
    · split at heq
      · simp at heq
      · simp only [Prod.mk.injEq, Except.error.injEq] at heq
        simp only [IRes.fail.injEq] at hf
        rw [← hf, ← heq.2]; exact hP.err _ (by simp)

omit hP hb in
theorem onlyI_inScope {D : Names} {st : State} {body : State → State × IRes} (h : Ready P D st)
    (hg : ∀ st, Gained st.vars (body st).1.vars)
    (ho : ∀ st, Ready P D st → OnlyI P (body st).2) : OnlyI P (inScope st body).2 := by
  have h1 := ho _ h.push
  obtain ⟨s, r, hr⟩ := gained_push (hg { st with vars := st.vars.push })
  rw [inScope_eq (st₁ := (body { st with vars := st.vars.push }).1) (r := (body { st with vars := st.vars.push }).2) rfl hr]
  exact h1

omit hb in
theorem onlyI_whileLoop {D : Names} {cond : State → R Bool} {body : State → State × IRes}
    (hc : ∀ st, Ready P D st → Only P (cond st)) (hbody : ∀ st, Ready P D st → OnlyI P (body st).2)
    (hr : ∀ st, Ready P D st → Ready P D (body st).1) :
    ∀ fuel st, Ready P D st → OnlyI P (whileLoop cond body fuel st).2 := by
  intro fuel
  induction fuel with
  | zero => intro st _ f hf; simp only [whileLoop, IRes.fail.injEq] at hf; rw [← hf]; exact hP.diverge
  | succ n ih =>
    intro st h
    unfold whileLoop
    split
    · rename_i f hf
      intro g hg; simp only [IRes.fail.injEq] at hg; rw [← hg]; exact hc st h f hf
    · intro g hg; simp at hg
    · have h1 := hbody st h
      have h2 := hr st h
      generalize body st = r at h1 h2
      obtain ⟨st', r⟩ := r
      cases r with
      | ok => exact ih _ h2
      | cont => exact ih _ h2
      | brk => intro g hg; simp at hg
      | quit => exact h1
      | fail f => exact h1

omit hP hb in
theorem onlyI_forLoop {D : Names} {name : Str} {body : State → State × IRes}
    (hbody : ∀ st, Ready P (D.with [name]) st → OnlyI P (body st).2)
    (hr : ∀ st, Ready P (D.with [name]) st → Ready P (D.with [name]) (body st).1) :
    ∀ items, (P .panic ∨ ∀ v ∈ items, Good v) → ∀ st, Ready P D st → OnlyI P (forLoop name body items st).2 := by
  intro items
  induction items with
  | nil => intro _ st _ f hf; simp [forLoop] at hf
  | cons v vs ih =>
    intro hg st h
    have hv : P .panic ∨ Good v := hg.imp_right fun h => h v (by simp)
    have hvs : P .panic ∨ ∀ v ∈ vs, Good v := hg.imp_right fun h w hw => h w (by simp [hw])
    obtain ⟨vars, hi⟩ := insert_ok st.vars name v h.ne
    unfold forLoop
    rw [hi]
    have h0 := h.insert hi hv
    have h1 := hbody _ h0
    have h2 := hr _ h0
    simp only
    generalize body { st with vars := vars } = r at h1 h2
    obtain ⟨st', r⟩ := r
    have h3 : Ready P D st' := h2.weaken fun x hx => .inl hx
    cases r with
    | ok => exact ih hvs _ h3
    | cont => exact ih hvs _ h3
    | brk => intro g hg; simp at hg
    | quit => exact h1
    | fail f => exact h1

theorem only_cond {D : Names} {st : State} (h : Ready P D st) {c : Expr} (hc : Plain P c) (hu : ∀ x ∈ c.uses, D x) :
    Only P (evalCond cfg st c) :=
  only_bind (only_evalExpr hP cfg hb st c (h.fine hc hu)) fun _ _ => only_asBoolean hP _

omit hP hb in
theorem Ready.value {D : Names} {st : State} (h : Ready P D st) {e : Expr} (he : Plain P e) {v : Value}
    (hv : evalExpr cfg st e = .ok v) : P .panic ∨ Good v := by
  rcases he with he | he
  · exact .inl he
  · exact h.good.imp_right fun hg => evalExpr_good cfg st hg e he.2 v hv

omit hP hb in
theorem onlyI_error {x : R Value} {st : State} {f : Fail} (h : Only P x) (hf : x = .error f) :
    OnlyI P (st, IRes.fail f).2 := by
  intro g hg; simp only [IRes.fail.injEq] at hg; rw [← hg]; exact h f hf

theorem onlyI_assign {D : Names} {st : State} (h : Ready P D st) (l r : Expr) (hl : Plain P l) (hr : Plain P r)
    (hs : Strict D (.assign l r)) : OnlyI P (evalAssign cfg st l r).2 := by
  have hru : ∀ x ∈ r.uses, D x := by
    cases l <;> simp only [Strict] at hs <;> first | exact hs | exact hs.2
  have h1 := only_evalExpr hP cfg hb st r (h.fine hr hru)
  unfold evalAssign
  split
  · rename_i hf; exact onlyI_error h1 hf
  · rename_i v hv
    split
    · rename_i name
      obtain ⟨vs, hi⟩ := insert_ok st.vars name v h.ne
      rw [hi]
      intro g hg; simp at hg
    · rename_i hne
      have hlu : ∀ x ∈ l.uses, D x := by
        cases l <;> simp only [Strict] at hs <;> first | exact hs.1 | exact absurd rfl (hne _)
      have h2 := only_modifyLhs hP cfg hb st l (fun _ => .ok v) (fun _ => only_ok _) (h.fine hl hlu)
      split
      · intro g hg; simp at hg
      · rename_i f hf
        intro g hg; simp only [IRes.fail.injEq] at hg; rw [← hg]; exact h2 f hf

mutual
theorem onlyI_stmt : ∀ (s : Stmt) (D : Names) (st : State), s.AllE (Plain P) → Strict D s → Ready P D st →
    OnlyI P (evalStmt cfg s st).2
  | .assign l r, D, st, hp, hs, h => by
    rw [evalStmt]; exact onlyI_assign hP hb h l r hp.1 hp.2 hs
  | .ite c t f, D, st, hp, hs, h => by
    rw [Strict] at hs
    rw [evalStmt]
    refine onlyI_inScope h (fun st => ?_) (fun st h => ?_)
    · cases evalCond cfg st c with
      | error e => exact Gained.refl _
      | ok b => cases b
                · exact evalStmts_rel (gained_closed cfg) f (allT_true f) st
                · exact evalStmts_rel (gained_closed cfg) t (allT_true t) st
    · have hc := only_cond hP hb h hp.1 hs.1
      split
      · rename_i e he
        intro g hg; simp only [IRes.fail.injEq] at hg; rw [← hg]; exact hc _ he
      · exact onlyI_stmts t D st hp.2.1 hs.2.1 h
      · exact onlyI_stmts f D st hp.2.2 hs.2.2 h
  | .while c b, D, st, hp, hs, h => by
    rw [Strict] at hs
    rw [evalStmt]
    refine onlyI_inScope h (fun st => ?_) (fun st h => ?_)
    · exact whileLoop_rel (gained_closed cfg) _ _
        (fun st => evalStmts_rel (gained_closed cfg) b (allT_true b) st) _ st
    · exact onlyI_whileLoop hP (fun st h => only_cond hP hb h hp.1 hs.1)
        (fun st h => onlyI_stmts b D st hp.2 hs.2 h) (fun st h => h.stmts b hp.2) _ st h
  | .for x r b, D, st, hp, hs, h => by
    rw [Strict] at hs
    rw [evalStmt]
    refine onlyI_inScope h (fun st => ?_) (fun st h => ?_)
    · exact evalFor_rel (gained_closed cfg) x r trivial _
        (fun st => evalStmts_rel (gained_closed cfg) b (allT_true b) st) st
    · have hr := only_evalExpr hP cfg hb st r (h.fine hp.2.1 hs.1)
      unfold evalFor
      split
      · rename_i n
        split
        · rename_i f hf; exact onlyI_error hr hf
        · rename_i v hv
          split
          · rename_i f hf
            intro g hg; simp only [IRes.fail.injEq] at hg; rw [← hg]; exact only_asVec hP v f hf
          · rename_i items hi
            obtain ⟨k, rfl⟩ := asVec_inv hi
            have hg : P .panic ∨ ∀ v ∈ items, Good v :=
              (h.value hp.2.1 hv).imp_right fun hg => good_array.1 hg
            exact onlyI_forLoop (fun st h => onlyI_stmts b _ st hp.2.2 (hs.2 n rfl) h)
              (fun st h => h.stmts b hp.2.2) items hg st h
      · intro g hg; simp only [IRes.fail.injEq] at hg; rw [← hg]; exact hP.err _ (by simp)
  | .brk, D, st, hp, hs, h => by rw [evalStmt]; intro f hf; simp at hf
  | .cont, D, st, hp, hs, h => by rw [evalStmt]; intro f hf; simp at hf
  | .help, D, st, hp, hs, h => by rw [evalStmt]; exact onlyI_write hP _ _
  | .quit, D, st, hp, hs, h => by rw [evalStmt]; intro f hf; simp at hf
  | .filesystem e, D, st, hp, hs, h => by
    rw [evalStmt, evalFilesystem]
    have h1 := only_evalExpr hP cfg hb st e (h.fine hp (by rw [Strict] at hs; exact hs))
    split
    · rename_i hf; exact onlyI_error h1 hf
    · split
      · rename_i f hf
        intro g hg; simp only [IRes.fail.injEq] at hg; rw [← hg]; exact only_asString hP _ _ f hf
      · split
        · rename_i f hf
          intro g hg; simp only [IRes.fail.injEq] at hg; rw [← hg]
          revert hf
          unfold Fs.new Fs.newMounted Fs.newUnmounted
          repeat' split
          all_goals
            intro hf
            first
              | (simp at hf; done)
              | (injection hf with hf; rw [← hf]; exact hP.err _ (by simp))
        · intro g hg; simp at hg
  | .print e, D, st, hp, hs, h => by
    rw [evalStmt, evalPrint]
    have h1 := only_evalExpr hP cfg hb st e (h.fine hp (by rw [Strict] at hs; exact hs))
    split
    · rename_i hf; exact onlyI_error h1 hf
    · rename_i v hv
      have h2 := only_printText hP cfg hb v (h.value hp hv)
      split
      · rename_i f hf
        intro g hg; simp only [IRes.fail.injEq] at hg; rw [← hg]; exact h2 f hf
      · exact onlyI_write hP _ _
  | .expr e, D, st, hp, hs, h => by
    rw [evalStmt, evalExprStmt]
    have h1 := only_evalExpr hP cfg hb st e (h.fine hp (by rw [Strict] at hs; exact hs))
    split
    · rename_i hf; exact onlyI_error h1 hf
    · rename_i v hv
      split
      · obtain ⟨t, ht⟩ := display_total v
        rw [ht]
        exact onlyI_write hP _ _
      · intro g hg; simp at hg
theorem onlyI_stmts : ∀ (p : List Stmt) (D : Names) (st : State), allE (Plain P) p → StrictL D p → Ready P D st →
    OnlyI P (evalStmts cfg p st).2
  | [], D, st, hp, hs, h => by rw [evalStmts]; intro f hf; simp at hf
  | s :: ss, D, st, hp, hs, h => by
    rw [StrictL] at hs
    rw [evalStmts]
    have h1 := onlyI_stmt s D st hp.1 hs.1 h
    have h2 : Ready P D (evalStmt cfg s st).1 :=
      h.after (evalStmt_rel (gained_closed cfg) s (Stmt.allT_true s) st) (h.good_stmt s hp.1)
    have h3 : (evalStmt cfg s st).2 = .ok → Ready P (D.with s.gains) (evalStmt cfg s st).1 := by
      intro hok
      refine ⟨fun x hx => ?_, h2.good, h2.ne⟩
      rcases hx with hx | hx
      · exact h2.cover x hx
      · exact .inl (gains_defined s st hok x hx)
    generalize evalStmt cfg s st = r at h1 h2 h3
    obtain ⟨st', r⟩ := r
    cases r with
    | ok => exact onlyI_stmts ss _ st' hp.2 hs.2 (h3 rfl)
    | brk => intro g hg; simp at hg
    | cont => intro g hg; simp at hg
    | quit => exact h1
    | fail f => exact h1
end

end

end Btrd
