/-
What holds of every value of a live session: a property of values that the operations of the language preserve.
-/
import Verif.Lemmas.Shape
import Verif.Lemmas.Live

namespace Btrd
open Spec

/-! ### computations, whatever sensible answers they get -/

/-- whatever the answers are (items with numbers that fit their fields, as many bytes as asked for), the end is one of
these -/
inductive Leads {α : Type} (Q : α → Prop) : T α → Prop
  | ret {a} : Q a → Leads Q (.ret a)
  | warn (w) {k} : Leads Q k → Leads Q (.warn w k)
  | search {fs} (a) {k} : (∀ r, (∀ its, r = .ok its → ∀ it ∈ its, GoodItem it) → Leads Q (k r)) → Leads Q (.search fs a k)
  | bytes {fs} (i j) {k} : (∀ r, (∀ bs, r = .ok bs → bs.length ≤ j) → Leads Q (k r)) → Leads Q (.bytes fs i j k)
  | opens (p) {k} : (∀ r, Leads Q (k r)) → Leads Q (.opens p k)

theorem Leads.bind {α β : Type} {Q : α → Prop} {S : β → Prop} {f : α → T β} (hf : ∀ a, Q a → Leads S (f a)) {x : T α}
    (h : Leads Q x) : Leads S (x.bind f) := by
  induction h with
  | ret h => exact hf _ h
  | warn w _ ih => exact .warn w ih
  | search a _ ih => exact .search a ih
  | bytes i j _ ih => exact .bytes i j ih
  | opens p _ ih => exact .opens p ih

theorem getBytes_size {fs : Fs} {i j : Nat} {bs : Bytes} (h : fs.getBytes i j = .ok bs) : bs.length ≤ j := by
  unfold Fs.getBytes at h
  split at h
  · split at h
    · simp only [Except.ok.injEq] at h
      rw [← h]
      simp only [List.length_take, List.length_drop]
      omega
    · simp at h
  · simp at h

theorem Leads.result {α : Type} {Q : α → Prop} (fuel : Nat) (ω : Live) {x : T α} (h : Leads Q x) :
    ∀ t, Q (x.live fuel ω t).result := by
  induction h with
  | ret h => exact fun _ => h
  | warn w _ ih => exact fun t => ih t
  | search a _ ih => exact fun t => ih _ (fun its h => search_good h) (t + 1)
  | bytes i j _ ih => exact fun t => ih _ (fun bs h => getBytes_size h) (t + 1)
  | opens p _ ih => exact fun t => ih _ (t + 1)

/-- every value it can give -/
def Vals {α : Type} (P : α → Prop) (x : E α) : Prop := Leads (α := R α) (fun r => ∀ v, r = .ok v → P v) x

section
variable {α β : Type} {P : α → Prop} {Q : β → Prop}

theorem vals_of {r : R α} (h : ∀ v, r = .ok v → P v) : Vals P (E.of r) := .ret h

theorem vals_fail {e : Fail} : Vals P (E.of (.error e)) := .ret (by rintro v ⟨⟩)

theorem vals_ok {a : α} (h : P a) : Vals P (E.of (.ok a)) := .ret (by rintro v ⟨⟩; exact h)

theorem vals_bind {x : E α} {f : α → E β} (h : Vals P x) (hf : ∀ a, P a → Vals Q (f a)) : Vals Q (x >>= f) := by
  refine Leads.bind (α := R α) (fun r hr => ?_) h
  cases r with
  | ok a => exact hf a (hr a rfl)
  | error e => exact .ret (by rintro v ⟨⟩)

/-- a step that neither asks nor warns -/
theorem vals_then {r : R α} {f : α → E β} (hf : ∀ a, r = .ok a → Vals Q (f a)) : Vals Q (E.of r >>= f) :=
  vals_bind (P := fun a => r = .ok a) (vals_of fun _ h => h) hf

end

/-! ### properties of values that the language preserves -/

/-- the operations of the language preserve the property, if the integers in programs are such ones -/
structure Lasting (Q : Int → Prop) (P : Value → Prop) : Prop where
  fits : ∀ i, Fits i → Q i
  int : ∀ i, Q i → P (.int i)
  str : ∀ s, P (.str s)
  bool : ∀ b, P (.bool b)
  func : ∀ f, P (.func f)
  array : ∀ vs h, P (.array vs h) ↔ ∀ v ∈ vs, P v
  bin : ∀ op l r, P l → P r → ∀ v, binop op (.ok l) (.ok r) = .ok v → P v
  un : ∀ b op x, P x → ∀ v, unop b op (.ok x) = .ok v → P v
  decoded : ∀ b s key bytes sv, s ∈ structs → bytes.length < 2 ^ 64 → GoodKey key →
    structFromBytes b s key bytes = .ok sv → P (.struct sv.name sv.key sv.fields)
  key : ∀ b (vs : List Value), (∀ v ∈ vs, P v) → ∀ v, keyFn b (vs.map .ok) = .ok v → P v
  keyof : ∀ b x, P x → ∀ v, keyofFn b [.ok x] = .ok v → P v
  field : ∀ x f, P x → ∀ v, fieldOp (.ok x) f = .ok v → P v
  modify : ∀ what n k fs fs' name (f : Value → R Value), P (.struct n k fs) → (∀ v v', P v → f v = .ok v' → P v') →
    modifyField what f fs name = .ok fs' → P (.struct n k fs')

section
variable {Lit : Int → Prop} {P : Value → Prop} (L : Lasting Lit P)
include L

theorem vals_intOp (op : BinOp) (f : Int → Int → R Value)
    (hop : ∀ i j, binop op (.ok (.int i)) (.ok (.int j)) = f i j) {l r : E Value} (hl : Vals P l) (hr : Vals P r) :
    Vals P (intOpT f l r) := by
  refine vals_bind hl fun lv pl => vals_then fun i hi => vals_bind hr fun rv pr => vals_then fun j hj => vals_of fun v hv => ?_
  rw [asInteger_inv hi] at pl
  rw [asInteger_inv hj] at pr
  exact L.bin op _ _ pl pr v (by rw [hop]; exact hv)

theorem vals_bin (op : BinOp) {l r : E Value} (hl : Vals P l) (hr : Vals P r) : Vals P (binopT op l r) := by
  cases op
  case plus => exact vals_bind hl fun lv pl => vals_bind hr fun rv pr => vals_of fun v hv => L.bin .plus _ _ pl pr v hv
  case eq => exact vals_bind hl fun lv pl => vals_bind hr fun rv pr => vals_ok (L.bool _)
  case ne => exact vals_bind hl fun lv pl => vals_bind hr fun rv pr => vals_ok (L.bool _)
  case land =>
    refine vals_bind hl fun lv pl => vals_then fun b _ => ?_
    split
    · exact vals_ok (L.bool _)
    · exact vals_bind hr fun rv pr => vals_then fun b _ => vals_ok (L.bool _)
  case lor =>
    refine vals_bind hl fun lv pl => vals_then fun b _ => ?_
    split
    · exact vals_ok (L.bool _)
    · exact vals_bind hr fun rv pr => vals_then fun b _ => vals_ok (L.bool _)
  case minus => exact vals_intOp L .minus _ (fun _ _ => rfl) hl hr
  case mul => exact vals_intOp L .mul _ (fun _ _ => rfl) hl hr
  case div => exact vals_intOp L .div _ (fun _ _ => rfl) hl hr
  case mod => exact vals_intOp L .mod _ (fun _ _ => rfl) hl hr
  case bor => exact vals_intOp L .bor _ (fun _ _ => rfl) hl hr
  case band => exact vals_intOp L .band _ (fun _ _ => rfl) hl hr
  case bxor => exact vals_intOp L .bxor _ (fun _ _ => rfl) hl hr
  case shl => exact vals_intOp L .shl _ (fun _ _ => rfl) hl hr
  case shr => exact vals_intOp L .shr _ (fun _ _ => rfl) hl hr
  case lt => exact vals_intOp L .lt _ (fun _ _ => rfl) hl hr
  case le => exact vals_intOp L .le _ (fun _ _ => rfl) hl hr
  case gt => exact vals_intOp L .gt _ (fun _ _ => rfl) hl hr
  case ge => exact vals_intOp L .ge _ (fun _ _ => rfl) hl hr

theorem vals_un (b : Build) (op : UnOp) {x : E Value} (h : Vals P x) : Vals P (unopT b op x) :=
  vals_bind h fun x px => vals_of fun v hv => L.un b op x px v hv

theorem vals_cast (b : Build) (cur : Option Fs) (ty : Expr) {x : E Value} (h : Vals P x) : Vals P (castOpT b cur ty x) := by
  refine vals_bind h fun _ _ => vals_then fun p _ => ?_
  by_cases hp : p < 0
  · simp only [hp, if_true]; exact vals_fail
  · simp only [hp, if_false]
    cases ty with
    | ident name =>
      dsimp only
      cases hs : findStruct name with
      | none => exact vals_fail
      | some s =>
        cases cur with
        | none => exact vals_fail
        | some fs =>
          refine vals_then fun stop hstop => vals_bind (P := fun bs : Bytes => bs.length ≤ stop) ?_ fun bs hbs =>
            vals_then fun sv hsv => vals_ok ?_
          · exact .bytes _ _ fun r hr => .ret hr
          · have := usizeAdd_lt hstop
            exact L.decoded b s none bs sv (findStruct_mem' hs) (by omega) (by rintro a b c ⟨⟩) hsv
    | _ => exact vals_fail

theorem vals_intArgs : ∀ {args : List (E Value)}, (∀ x ∈ args, Vals P x) →
    Vals (fun vs : List Value => ∀ v ∈ vs, P v) (intArgsT args)
  | [], _ => vals_ok (by simp)
  | _ :: _, h => vals_bind (h _ (by simp)) fun v pv => vals_then fun _ _ =>
      vals_bind (vals_intArgs fun x hx => h x (by simp [hx])) fun vs pvs =>
        vals_ok (by intro w hw; rcases List.mem_cons.1 hw with rfl | hw; exact pv; exact pvs w hw)

theorem vals_decode (b : Build) : ∀ its : List Item, (∀ it ∈ its, GoodItem it) →
    Vals (fun vs : List Value => ∀ v ∈ vs, P v) (decodeItemsT b its)
  | [], _ => vals_ok (by simp)
  | (h, bytes) :: its, hg => by
    rw [decodeItemsT]
    have hgi := hg (h, bytes) (List.mem_cons_self ..)
    have hgs := fun it hit => hg it (List.mem_cons_of_mem _ hit)
    cases hs : structForKey h.objectid h.ty h.offset with
    | some s =>
      refine vals_then fun sv hsv => vals_bind (vals_decode b its hgs) fun vs pvs => vals_ok ?_
      intro w hw
      rcases List.mem_cons.1 hw with rfl | hw
      · refine L.decoded b s _ bytes sv (structForKey_mem hs) ?_ ?_ hsv
        · have := hgi.2.2.2; simp only at this; omega
        · rintro a b c ⟨⟩
          obtain ⟨h1, h2, h3, -⟩ := hgi
          simp only at h2
          exact ⟨fits_nat h1, fits_nat (by omega), fits_nat h3⟩
      · exact pvs w hw
    | none => exact vals_bind (P := fun _ => True) (.warn _ (.ret fun _ _ => trivial)) fun _ _ => vals_decode b its hgs

theorem vals_searchFn (b : Build) (cur : Option Fs) {args : List (E Value)} (h : ∀ x ∈ args, Vals P x) :
    Vals P (searchFnT b cur args) := by
  refine vals_then fun _ _ => ?_
  match args, h with
  | [], _ => exact vals_fail
  | [_], _ => exact vals_fail
  | [a0, a1], h =>
    refine vals_bind (h a0 (by simp)) fun _ _ => vals_then fun _ _ => vals_bind (h a1 (by simp)) fun _ _ =>
      vals_then fun _ _ => vals_then fun _ _ => ?_
    cases cur with
    | none => exact vals_fail
    | some fs =>
      refine vals_then fun sa _ => vals_bind (P := fun its : List Item => ∀ it ∈ its, GoodItem it) ?_ fun its hits =>
        vals_bind (vals_decode L b its hits) fun vs pvs => vals_ok ((L.array _ _).2 pvs)
      exact .search _ fun r hr => .ret hr
  | _ :: _ :: _ :: _, _ => exact vals_fail

omit L in
theorem vals_arg1 (msg : Str) {args : List (E Value)} (h : ∀ x ∈ args, Vals P x) : Vals P (arg1T msg args) := by
  refine vals_then fun _ _ => ?_
  match args, h with
  | [], _ => exact vals_fail
  | [a], h => exact h a (by simp)
  | _ :: _ :: _, _ => exact vals_fail

theorem vals_call (cfg : Cfg) (cur : Option Fs) {f : E Value} {args : List (E Value)} (hf : Vals P f)
    (h : ∀ x ∈ args, Vals P x) : Vals P (callFnT cfg cur f args) := by
  refine vals_bind hf fun _ _ => vals_then fun fn _ => ?_
  cases fn with
  | key => exact vals_then fun _ _ => vals_bind (vals_intArgs L h) fun vs pvs => vals_of fun v hv => L.key _ vs pvs v hv
  | search => exact vals_searchFn L _ cur h
  | hist =>
    refine vals_then fun _ _ => vals_of fun v hv => ?_
    simp only [histFn] at hv
    obtain ⟨_, -, hv⟩ := bind_ok hv
    simp only [Except.ok.injEq] at hv; subst hv; rw [L.array]; simp
  | keyOf => exact vals_bind (vals_arg1 _ h) fun x px => vals_of fun v hv => L.keyof _ x px v hv
  | typeOf =>
    refine vals_bind (vals_arg1 _ h) fun x px => vals_of fun v hv => ?_
    simp only [typeofFn] at hv
    obtain ⟨x, -, hv⟩ := bind_ok hv
    simp only [Except.ok.injEq] at hv; subst hv; exact L.str _
  | len =>
    refine vals_bind (vals_arg1 _ h) fun x px => vals_of fun v hv => ?_
    simp only [lenFn] at hv
    obtain ⟨x, -, hv⟩ := bind_ok hv
    obtain ⟨vec, -, hv⟩ := bind_ok hv
    split at hv
    · rename_i hi
      simp only [Except.ok.injEq] at hv; subst hv; exact L.int _ (L.fits _ ((inI128_iff _).1 hi))
    · simp at hv
  | str =>
    refine vals_bind (vals_arg1 _ h) fun x px => vals_of fun v hv => ?_
    simp only [strFn] at hv
    obtain ⟨x, -, hv⟩ := bind_ok hv
    split at hv
    · simp only [Except.ok.injEq] at hv; subst hv; exact L.str _
    · obtain ⟨t, -, hv⟩ := bind_ok hv
      simp only [Except.ok.injEq] at hv; subst hv; exact L.str _

theorem vals_field {x : E Value} (f : Expr) (h : Vals P x) : Vals P (fieldOpT x f) :=
  vals_bind h fun x px => vals_of fun v hv => L.field x f px v hv

theorem vals_index {x i : E Value} (hx : Vals P x) (hi : Vals P i) : Vals P (indexOpT x i) := by
  refine vals_bind hx fun x px => vals_then fun vec hvec => vals_bind hi fun _ _ => vals_then fun _ _ => vals_then fun n _ =>
    vals_of fun v hv => ?_
  obtain ⟨k, rfl⟩ := asVec_inv hvec
  unfold orErr at hv
  split at hv
  · rename_i w hw
    simp only [Except.ok.injEq] at hv; subst hv
    exact (L.array _ _).1 px _ (List.mem_of_getElem? hw)
  · simp at hv

end

/-! ### variables -/

/-- every variable, in every scope, holds such a value -/
def AllVars (P : Value → Prop) (vs : Vars Value) : Prop := ∀ s ∈ vs, ∀ x v, s x = some v → P v

section
variable {P : Value → Prop}

theorem AllVars.get {vs : Vars Value} (h : AllVars P vs) {x : Str} {v : Value} (hx : vs.get x = some v) : P v := by
  induction vs with
  | nil => simp [Vars.get] at hx
  | cons s vs ih =>
    simp only [Vars.get] at hx
    split at hx
    · rename_i w hw
      simp only [Option.some.injEq] at hx; subst hx
      exact h s (List.mem_cons_self ..) _ _ hw
    · exact ih (fun s' hs' => h s' (List.mem_cons_of_mem _ hs')) hx

theorem allScope_set {s : Scope Value} {k : Str} {w : Value} (hs : ∀ x v, s x = some v → P v) (hw : P w) :
    ∀ x v, s.set k w x = some v → P v := by
  intro x v h
  simp only [Scope.set] at h
  split at h
  · simp only [Option.some.injEq] at h; subst h; exact hw
  · exact hs x v h

theorem AllVars.cons {s : Scope Value} {vs : Vars Value} :
    AllVars P (s :: vs) ↔ (∀ x v, s x = some v → P v) ∧ AllVars P vs := by
  simp only [AllVars, List.mem_cons, forall_eq_or_imp]

theorem AllVars.overwrite {k : Str} {w : Value} (hw : P w) : ∀ {vs vs' : Vars Value}, AllVars P vs →
    vs.overwrite k w = some vs' → AllVars P vs' := by
  intro vs
  induction vs with
  | nil => intro vs' _ h; simp [Vars.overwrite] at h
  | cons s vs ih =>
    intro vs' hg h
    rw [AllVars.cons] at hg
    simp only [Vars.overwrite] at h
    split at h
    · simp only [Option.some.injEq] at h; subst h
      rw [AllVars.cons]
      exact ⟨allScope_set hg.1 hw, hg.2⟩
    · split at h
      · rename_i vs2 heq
        simp only [Option.some.injEq] at h; subst h
        rw [AllVars.cons]
        exact ⟨hg.1, ih hg.2 heq⟩
      · simp at h

theorem AllVars.insert {k : Str} {w : Value} (hw : P w) {vs vs' : Vars Value} (hg : AllVars P vs)
    (h : vs.insert k w = .ok vs') : AllVars P vs' := by
  unfold Vars.insert at h
  split at h
  · rename_i vs2 heq
    simp only [Except.ok.injEq] at h; subst h
    exact AllVars.overwrite hw hg heq
  · split at h
    · simp at h
    · simp only [Except.ok.injEq] at h; subst h
      rw [AllVars.cons] at hg ⊢
      exact ⟨allScope_set hg.1 hw, hg.2⟩

theorem AllVars.modify {k : Str} {f : Value → R Value} (hf : ∀ v v', P v → f v = .ok v' → P v') :
    ∀ {vs vs' : Vars Value}, AllVars P vs → vs.modify f k = some (.ok vs') → AllVars P vs' := by
  intro vs
  induction vs with
  | nil => intro vs' _ h; simp [Vars.modify] at h
  | cons s vs ih =>
    intro vs' hg h
    rw [AllVars.cons] at hg
    simp only [Vars.modify] at h
    split at h
    · rename_i v hv
      split at h
      · rename_i v' hv'
        simp only [Option.some.injEq, Except.ok.injEq] at h; subst h
        rw [AllVars.cons]
        exact ⟨allScope_set hg.1 (hf _ _ (hg.1 _ _ hv) hv'), hg.2⟩
      · simp at h
    · split at h
      · rename_i vs2 heq
        simp only [Option.some.injEq, Except.ok.injEq] at h; subst h
        rw [AllVars.cons]
        exact ⟨hg.1, ih hg.2 heq⟩
      · simp at h
      · simp at h

theorem modifyNth_all {er : Err} {f : Value → R Value} (hf : ∀ v v', P v → f v = .ok v' → P v') :
    ∀ {vs vs' : List Value} {n : Nat}, (∀ v ∈ vs, P v) → modifyNth er f vs n = .ok vs' → ∀ v ∈ vs', P v := by
  intro vs
  induction vs with
  | nil => intro vs' n _ h; simp [modifyNth] at h
  | cons v vs ih =>
    intro vs' n hg h
    simp only [List.mem_cons, forall_eq_or_imp] at hg
    cases n with
    | zero =>
      simp only [modifyNth] at h
      obtain ⟨v', h1, h⟩ := bind_ok h
      simp only [Except.ok.injEq] at h; subst h
      simp only [List.mem_cons, forall_eq_or_imp]
      exact ⟨hf _ _ hg.1 h1, hg.2⟩
    | succ n =>
      simp only [modifyNth] at h
      obtain ⟨vs2, h1, h⟩ := bind_ok h
      simp only [Except.ok.injEq] at h; subst h
      simp only [List.mem_cons, forall_eq_or_imp]
      exact ⟨hg.1, ih hg.2 h1⟩

end

section
variable {Lit : Int → Prop} {P : Value → Prop} (L : Lasting Lit P) (cfg : Cfg)
include L

mutual
theorem vals_expr (st : State) (hg : AllVars P st.vars) : ∀ e : Expr, (∀ i ∈ e.literals, Lit i) →
    Vals P (evalExprT cfg st e)
  | .ident name, _ => by
    rw [evalExprT]
    refine vals_of fun v h => ?_
    unfold orErr at h
    split at h
    · rename_i w hw
      simp only [Except.ok.injEq] at h; subst h
      exact hg.get hw
    · simp at h
  | .int i, hl => by rw [evalExprT]; exact vals_ok (L.int _ (hl i (by simp [Expr.literals])))
  | .bool _, _ => by rw [evalExprT]; exact vals_ok (L.bool _)
  | .str _, _ => by rw [evalExprT]; exact vals_ok (L.str _)
  | .paren e, hl => by rw [evalExprT]; exact vals_expr st hg e (by simpa only [Expr.literals] using hl)
  | .field e f, hl => by
    rw [evalExprT]
    exact vals_field L f (vals_expr st hg e (by simpa only [Expr.literals] using hl))
  | .index e i, hl => by
    rw [evalExprT]
    simp only [Expr.literals, List.mem_append] at hl
    exact vals_index L (vals_expr st hg e fun j hj => hl j (.inl hj)) (vals_expr st hg i fun j hj => hl j (.inr hj))
  | .call f args, hl => by
    rw [evalExprT]
    simp only [Expr.literals, List.mem_append] at hl
    exact vals_call L cfg _ (vals_expr st hg f fun j hj => hl j (.inl hj)) (vals_args st hg args fun j hj => hl j (.inr hj))
  | .bin op l r, hl => by
    rw [evalExprT]
    simp only [Expr.literals, List.mem_append] at hl
    exact vals_bin L op (vals_expr st hg l fun j hj => hl j (.inl hj)) (vals_expr st hg r fun j hj => hl j (.inr hj))
  | .un op e, hl => by rw [evalExprT]; exact vals_un L _ op (vals_expr st hg e (by simpa only [Expr.literals] using hl))
  | .cast ty e, hl => by
    rw [evalExprT]
    exact vals_cast L _ _ ty (vals_expr st hg e (by
      cases ty <;> simp_all [Expr.literals]))
theorem vals_args (st : State) (hg : AllVars P st.vars) : ∀ es : List Expr, (∀ i ∈ literalsL es, Lit i) →
    ∀ x ∈ evalArgsT cfg st es, Vals P x
  | [], _ => by rw [evalArgsT]; simp
  | e :: es, hl => by
    simp only [literalsL, List.mem_append] at hl
    rw [evalArgsT]
    intro x hx
    rcases List.mem_cons.1 hx with rfl | hx
    · exact vals_expr st hg e fun j hj => hl j (.inl hj)
    · exact vals_args st hg es (fun j hj => hl j (.inr hj)) x hx
end

theorem vals_lhs (st : State) (hg : AllVars P st.vars) : ∀ (e : Expr) (f : Value → R Value),
    (∀ i ∈ e.literals, Lit i) → (∀ v v', P v → f v = .ok v' → P v') → Vals (AllVars P) (modifyLhsT cfg st e f)
  | .field e fld, f, hl, hf => by
    rw [modifyLhsT.eq_def]
    cases fld with
    | ident name =>
      refine vals_lhs st hg e _ (by simpa only [Expr.literals] using hl) fun v v' pv hv => ?_
      split at hv
      · obtain ⟨fs', h1, hv⟩ := bind_ok hv
        simp only [Except.ok.injEq] at hv; subst hv
        exact L.modify _ _ _ _ _ _ f pv hf h1
      · simp at hv
    | _ => exact vals_fail
  | .index e i, f, hl, hf => by
    simp only [Expr.literals, List.mem_append] at hl
    rw [modifyLhsT.eq_def]
    refine vals_bind (vals_expr L cfg st hg i fun j hj => hl j (.inr hj)) fun _ _ => vals_then fun _ _ =>
      vals_lhs st hg e _ (fun j hj => hl j (.inl hj)) fun v v' pv hv => ?_
    split at hv
    · obtain ⟨n, -, hv⟩ := bind_ok hv
      obtain ⟨vec', h1, hv⟩ := bind_ok hv
      simp only [Except.ok.injEq] at hv; subst hv
      rw [L.array] at pv ⊢
      exact modifyNth_all hf pv h1
    · simp at hv
  | .ident name, f, _, hf => by
    rw [modifyLhsT.eq_def]
    refine vals_of fun vs h => ?_
    simp only [modifyLhs] at h
    split at h
    · rename_i r hr
      rw [h] at hr
      exact hg.modify hf hr
    · simp at h
  | .int _, _, _, _ => vals_of fun _ h => by simp [modifyLhs] at h
  | .bool _, _, _, _ => vals_of fun _ h => by simp [modifyLhs] at h
  | .str _, _, _, _ => vals_of fun _ h => by simp [modifyLhs] at h
  | .paren _, _, _, _ => vals_of fun _ h => by simp [modifyLhs] at h
  | .call _ _, _, _, _ => vals_of fun _ h => by simp [modifyLhs] at h
  | .bin _ _ _, _, _, _ => vals_of fun _ h => by simp [modifyLhs] at h
  | .un _ _, _, _, _ => vals_of fun _ h => by simp [modifyLhs] at h
  | .cast _ _, _, _, _ => vals_of fun _ h => by simp [modifyLhs] at h

end

/-! ### statements -/

/-- the variables of the state hold such values -/
def AllState (P : Value → Prop) (r : State × IRes) : Prop := AllVars P r.1.vars

section
variable {P : Value → Prop}

theorem leads_into {α : Type} {Q : α → Prop} {x : E α} (h : Vals Q x) (st : State) (hs : AllVars P st.vars)
    {k : α → T (State × IRes)} (hk : ∀ a, Q a → Leads (AllState P) (k a)) : Leads (AllState P) (x.into st k) := by
  refine Leads.bind (α := R α) (fun r hr => ?_) h
  cases r with
  | ok a => exact hk a (hr a rfl)
  | error e => exact .ret hs

/-- a step that neither asks nor warns -/
theorem leads_then {α : Type} {r : R α} (st : State) (hs : AllVars P st.vars)
    {k : α → T (State × IRes)} (hk : ∀ a, r = .ok a → Leads (AllState P) (k a)) : Leads (AllState P) ((E.of r).into st k) :=
  leads_into (Q := fun a => r = .ok a) (vals_of fun _ h => h) st hs hk

theorem leads_write (st : State) (s : Str) (h : AllVars P st.vars) : Leads (AllState P) (.ret (st.write s)) := by
  refine .ret ?_
  unfold AllState
  rw [State.write_vars]
  exact h

theorem leads_scope (st : State) (h : AllVars P st.vars) {body : State → T (State × IRes)}
    (hb : ∀ st : State, AllVars P st.vars → Leads (AllState P) (body st)) : Leads (AllState P) (inScopeT st body) := by
  refine Leads.bind (fun r hr => .ret ?_) (hb { st with vars := st.vars.push } ?_)
  · unfold AllState at hr ⊢
    cases hv : r.1.vars with
    | nil => rw [hv] at hr; simp only [Vars.pop, hv]; exact hr
    | cons s vs => rw [hv] at hr; simp only [Vars.pop]; exact (AllVars.cons.1 hr).2
  · simp only [Vars.push, AllVars.cons]
    exact ⟨by simp [Scope.empty], h⟩

theorem leads_while {c : State → E Bool} {body : State → T (State × IRes)}
    (hc : ∀ st : State, AllVars P st.vars → Vals (fun _ => True) (c st))
    (hb : ∀ st : State, AllVars P st.vars → Leads (AllState P) (body st)) : ∀ (n : Nat) (st : State), AllVars P st.vars →
      Leads (AllState P) (whileLoopT c body n st)
  | 0, _, h => .ret h
  | n + 1, st, h => by
    refine leads_into (hc st h) st h fun b _ => ?_
    cases b
    · exact .ret h
    · refine Leads.bind (fun r hr => ?_) (hb st h)
      obtain ⟨st', r⟩ := r
      cases r with
      | ok => exact leads_while hc hb n st' hr
      | cont => exact leads_while hc hb n st' hr
      | _ => exact .ret hr

theorem leads_for (name : Str) {body : State → T (State × IRes)}
    (hb : ∀ st : State, AllVars P st.vars → Leads (AllState P) (body st)) : ∀ (vs : List Value), (∀ v ∈ vs, P v) →
      ∀ st : State, AllVars P st.vars → Leads (AllState P) (forLoopT name body vs st)
  | [], _, _, h => .ret h
  | v :: vs, hv, st, h => by
    refine leads_then st h fun w hw => Leads.bind (fun r hr => ?_) (hb { st with vars := w } (h.insert (hv v (by simp)) hw))
    obtain ⟨st', r⟩ := r
    cases r with
    | ok => exact leads_for name hb vs (fun v h => hv v (by simp [h])) st' hr
    | cont => exact leads_for name hb vs (fun v h => hv v (by simp [h])) st' hr
    | _ => exact .ret hr

variable {Lit : Int → Prop} (L : Lasting Lit P) (cfg : Cfg)
include L

theorem leads_assign (st : State) (h : AllVars P st.vars) (l r : Expr) (hl : ∀ i ∈ l.literals, Lit i)
    (hr : ∀ i ∈ r.literals, Lit i) : Leads (AllState P) (evalAssignT cfg st l r) := by
  refine leads_into (vals_expr L cfg st h r hr) st h fun v pv => ?_
  cases l with
  | ident name => exact leads_then st h fun w hw => .ret (h.insert pv hw)
  | _ =>
    exact leads_into (vals_lhs L cfg st h _ _ hl (by rintro _ _ - h'; simp only [Except.ok.injEq] at h'; subst h'; exact pv))
      st h fun _ hw => .ret hw

theorem vals_cond (st : State) (h : AllVars P st.vars) (e : Expr) (he : ∀ i ∈ e.literals, Lit i) :
    Vals (fun _ => True) (evalCondT cfg st e) :=
  vals_bind (vals_expr L cfg st h e he) fun _ _ => vals_of fun _ _ => trivial

theorem leads_evalFor (x range : Expr) (hr : ∀ i ∈ range.literals, Lit i) {body : State → T (State × IRes)}
    (hb : ∀ st : State, AllVars P st.vars → Leads (AllState P) (body st)) (st : State) (h : AllVars P st.vars) :
    Leads (AllState P) (evalForT cfg x range body st) := by
  unfold evalForT
  cases x with
  | ident name =>
    refine leads_into (vals_expr L cfg st h range hr) st h fun v pv => leads_then st h fun vec hvec => ?_
    obtain ⟨k, rfl⟩ := asVec_inv hvec
    exact leads_for name hb vec ((L.array _ _).1 pv) st h
  | _ => exact .ret h

mutual
theorem leads_stmt : ∀ (s : Stmt), s.AllE (fun e => ∀ i ∈ e.literals, Lit i) → ∀ st : State, AllVars P st.vars →
    Leads (AllState P) (evalStmtT cfg s st)
  | .assign l r, hs, st, h => by rw [evalStmtT]; exact leads_assign L cfg st h l r hs.1 hs.2
  | .ite c t f, hs, st, h => by
    rw [evalStmtT]
    refine leads_scope st h fun st h => leads_into (vals_cond L cfg st h c hs.1) st h fun b _ => ?_
    cases b
    · exact leads_stmts f hs.2.2 st h
    · exact leads_stmts t hs.2.1 st h
  | .while c body, hs, st, h => by
    rw [evalStmtT]
    exact leads_scope st h fun st h => leads_while (fun st h => vals_cond L cfg st h c hs.1)
      (fun st h => leads_stmts body hs.2 st h) _ st h
  | .for x r body, hs, st, h => by
    rw [evalStmtT]
    exact leads_scope st h fun st h => leads_evalFor L cfg x r hs.2.1 (fun st h => leads_stmts body hs.2.2 st h) st h
  | .brk, _, st, h => by rw [evalStmtT]; exact .ret h
  | .cont, _, st, h => by rw [evalStmtT]; exact .ret h
  | .help, _, st, h => by rw [evalStmtT]; exact leads_write st _ h
  | .quit, _, st, h => by rw [evalStmtT]; exact .ret h
  | .filesystem e, hs, st, h => by
    rw [evalStmtT]
    refine leads_into (vals_expr L cfg st h e hs) st h fun v _ => leads_then st h fun path _ =>
      leads_into (Q := fun _ => True) ?_ st h fun fs _ => .ret h
    exact .opens _ fun _ => .ret fun _ _ => trivial
  | .print e, hs, st, h => by
    rw [evalStmtT]
    exact leads_into (vals_expr L cfg st h e hs) st h fun v _ => leads_then st h fun t _ => leads_write st _ h
  | .expr e, hs, st, h => by
    rw [evalStmtT]
    refine leads_into (vals_expr L cfg st h e hs) st h fun v _ => ?_
    cases cfg.interactive
    · exact .ret h
    · exact leads_then st h fun t _ => leads_write st _ h
theorem leads_stmts : ∀ (ss : List Stmt), allE (fun e => ∀ i ∈ e.literals, Lit i) ss → ∀ st : State, AllVars P st.vars →
    Leads (AllState P) (evalStmtsT cfg ss st)
  | [], _, st, h => by rw [evalStmtsT]; exact .ret h
  | s :: ss, hs, st, h => by
    rw [evalStmtsT]
    refine Leads.bind (fun r hr => ?_) (leads_stmt s hs.1 st h)
    obtain ⟨st', r⟩ := r
    cases r with
    | ok => exact leads_stmts ss hs.2 st' hr
    | _ => exact .ret hr
end

end

end Btrd
