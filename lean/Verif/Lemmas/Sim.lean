/-
Two evaluations side by side: the same requests and warnings, whatever the answers are, and related results.
-/
import Verif.Spec.Rename
import Verif.Lemmas.Errors
import Verif.Lemmas.Live

namespace Btrd
open Spec

set_option linter.unusedSectionVars false

/-- the same requests and warnings, and results in the relation, whatever filesystems answer -/
inductive Sim {α β : Type} (Q : α → β → Prop) : T α → T β → Prop
  | ret {a b} : Q a b → Sim Q (.ret a) (.ret b)
  | warn (w) {k k'} : Sim Q k k' → Sim Q (.warn w k) (.warn w k')
  | search (fs a) {k k'} : (∀ (fuel : Nat) (g : Fs), Sim Q (k (g.search fuel a)) (k' (g.search fuel a))) →
      Sim Q (.search fs a k) (.search fs a k')
  | bytes (fs i j) {k k'} : (∀ g : Fs, Sim Q (k (g.getBytes i j)) (k' (g.getBytes i j))) →
      Sim Q (.bytes fs i j k) (.bytes fs i j k')
  | opens (p) {k k'} : (∀ h : Host, Sim Q (k (Fs.new h p)) (k' (Fs.new h p))) → Sim Q (.opens p k) (.opens p k')

theorem Sim.bind {α β γ δ : Type} {Q : α → β → Prop} {S : γ → δ → Prop} {f : α → T γ} {g : β → T δ}
    (hf : ∀ a b, Q a b → Sim S (f a) (g b)) {x : T α} {y : T β} (h : Sim Q x y) : Sim S (x.bind f) (y.bind g) := by
  induction h with
  | ret h => exact hf _ _ h
  | warn w _ ih => exact .warn w ih
  | search fs a _ ih => exact .search fs a ih
  | bytes fs i j _ ih => exact .bytes fs i j ih
  | opens p _ ih => exact .opens p ih

theorem Sim.live {α β : Type} {Q : α → β → Prop} (fuel : Nat) (ω : Live) {x : T α} {y : T β} (h : Sim Q x y) : ∀ t,
    (y.live fuel ω t).clock = (x.live fuel ω t).clock ∧ (y.live fuel ω t).log = (x.live fuel ω t).log ∧
      Q (x.live fuel ω t).result (y.live fuel ω t).result := by
  induction h with
  | ret h => exact fun t => ⟨rfl, rfl, h⟩
  | warn w _ ih =>
    intro t
    obtain ⟨h1, h2, h3⟩ := ih t
    exact ⟨h1, by simp only [T.live, after_log, h2], h3⟩
  | search fs a _ ih =>
    intro t
    obtain ⟨h1, h2, h3⟩ := ih fuel (ω.drift t fs) (t + 1)
    exact ⟨h1, by simp only [T.live, after_log, h2], h3⟩
  | bytes fs i j _ ih =>
    intro t
    obtain ⟨h1, h2, h3⟩ := ih (ω.drift t fs) (t + 1)
    exact ⟨h1, by simp only [T.live, after_log, h2], h3⟩
  | opens p _ ih =>
    intro t
    obtain ⟨h1, h2, h3⟩ := ih (ω.host t) (t + 1)
    exact ⟨h1, by simp only [T.live, after_log, h2], h3⟩

/-! ### computations that may fail -/

/-- both succeed with related values, or both fail with the same failure, up to new names -/
def Via {α β : Type} (ρ : Str → Str) (Q : α → β → Prop) : R α → R β → Prop
  | .ok a, .ok b => Q a b
  | .error f, .error g => g = renameFail ρ f
  | _, _ => False

/-- side by side, for computations that may fail -/
def SimE {α β : Type} (ρ : Str → Str) (Q : α → β → Prop) (x : E α) (y : E β) : Prop := Sim (Via ρ Q) (α := R α) (β := R β) x y

/-- failures that do not name a variable -/
def Nameless (f : Fail) : Prop := ∀ x, f ≠ .err (.unknownVar x)

theorem nameless : Ordinary Nameless :=
  ⟨fun e he x h => by injection h with h; subst h; simp at he, fun x h => by cases h⟩

theorem nameless_panic : Nameless .panic := fun x h => by cases h

theorem nameless_control : Nameless (.err .controlFlow) := fun x h => by cases h

theorem renameFail_nameless {ρ : Str → Str} {f : Fail} (h : Nameless f) : renameFail ρ f = f := by
  cases f with
  | err e => cases e <;> first | rfl | exact absurd rfl (h _)
  | panic => rfl
  | diverge => rfl

section
variable {ρ : Str → Str} {α β γ δ : Type}

theorem via_same {r : R α} (h : Only Nameless r) : Via ρ Eq r r := by
  cases r with
  | ok a => rfl
  | error f => exact (renameFail_nameless (h f rfl)).symm

theorem sim_of {Q : α → β → Prop} {r : R α} {r' : R β} (h : Via ρ Q r r') : SimE ρ Q (E.of r) (E.of r') := .ret h

theorem sim_pure {r : R α} (h : Only Nameless r) : SimE ρ Eq (E.of r) (E.of r) := sim_of (via_same h)

theorem SimE.bind {Q : α → β → Prop} {S : γ → δ → Prop} {x : E α} {y : E β} {f : α → E γ} {g : β → E δ}
    (h : SimE ρ Q x y) (hf : ∀ a b, Q a b → SimE ρ S (f a) (g b)) : SimE ρ S (x >>= f) (y >>= g) := by
  refine Sim.bind (fun a b hab => ?_) h
  cases a <;> cases b <;> first | exact hab.elim | skip
  · exact .ret hab
  · exact hf _ _ hab

theorem SimE.bindEq {S : γ → δ → Prop} {x y : E α} {f : α → E γ} {g : α → E δ}
    (h : SimE ρ Eq x y) (hf : ∀ a, SimE ρ S (f a) (g a)) : SimE ρ S (x >>= f) (y >>= g) :=
  h.bind fun a _ hab => hab ▸ hf a

theorem sim_then {S : γ → δ → Prop} {r : R α} {f : α → E γ} {g : α → E δ} (h : Only Nameless r)
    (hf : ∀ a, r = .ok a → SimE ρ S (f a) (g a)) : SimE ρ S (E.of r >>= f) (E.of r >>= g) := by
  cases r with
  | ok a => exact hf a rfl
  | error e => exact .ret (renameFail_nameless (h e rfl)).symm

/-! ### expressions -/

theorem sim_intOp {f : Int → Int → R Value} (hf : ∀ i j, Only Nameless (f i j)) {l l' r r' : E Value}
    (hl : SimE ρ Eq l l') (hr : SimE ρ Eq r r') : SimE ρ Eq (intOpT f l r) (intOpT f l' r') :=
  hl.bindEq fun _ => sim_then (only_asInteger nameless _) fun _ _ => hr.bindEq fun _ =>
    sim_then (only_asInteger nameless _) fun _ _ => sim_pure (hf _ _)

/-- the integer operations only fail with ordinary errors: from what is known of `binop` -/
theorem only_int {f : Int → Int → R Value} (op : BinOp)
    (h : ∀ l r, binop op l r = intOp f l r) (i j : Int) : Only Nameless (f i j) := by
  have := only_binop (P := Nameless) nameless op (l := .ok (.int i)) (r := .ok (.int j)) (only_ok _) (only_ok _)
  rw [h] at this
  exact this

theorem sim_binop (op : BinOp) {l l' r r' : E Value} (hl : SimE ρ Eq l l') (hr : SimE ρ Eq r r') :
    SimE ρ Eq (binopT op l r) (binopT op l' r') := by
  cases op
  case plus =>
    refine hl.bindEq fun a => hr.bindEq fun b => sim_pure ?_
    have := only_binop (P := Nameless) nameless .plus (l := .ok a) (r := .ok b) (only_ok _) (only_ok _)
    exact this
  case eq => exact hl.bindEq fun a => hr.bindEq fun b => sim_pure (only_ok _)
  case ne => exact hl.bindEq fun a => hr.bindEq fun b => sim_pure (only_ok _)
  case lor =>
    refine hl.bindEq fun a => sim_then (only_asBoolean nameless _) fun b _ => ?_
    cases b
    · exact hr.bindEq fun _ => sim_then (only_asBoolean nameless _) fun _ _ => sim_pure (only_ok _)
    · exact sim_pure (only_ok _)
  case land =>
    refine hl.bindEq fun a => sim_then (only_asBoolean nameless _) fun b _ => ?_
    cases b
    · exact sim_pure (only_ok _)
    · exact hr.bindEq fun _ => sim_then (only_asBoolean nameless _) fun _ _ => sim_pure (only_ok _)
  case minus => exact sim_intOp (only_int .minus fun _ _ => rfl) hl hr
  case mul => exact sim_intOp (only_int .mul fun _ _ => rfl) hl hr
  case div => exact sim_intOp (only_int .div fun _ _ => rfl) hl hr
  case mod => exact sim_intOp (only_int .mod fun _ _ => rfl) hl hr
  case bor => exact sim_intOp (only_int .bor fun _ _ => rfl) hl hr
  case band => exact sim_intOp (only_int .band fun _ _ => rfl) hl hr
  case bxor => exact sim_intOp (only_int .bxor fun _ _ => rfl) hl hr
  case shl => exact sim_intOp (only_int .shl fun _ _ => rfl) hl hr
  case shr => exact sim_intOp (only_int .shr fun _ _ => rfl) hl hr
  case lt => exact sim_intOp (only_int .lt fun _ _ => rfl) hl hr
  case le => exact sim_intOp (only_int .le fun _ _ => rfl) hl hr
  case gt => exact sim_intOp (only_int .gt fun _ _ => rfl) hl hr
  case ge => exact sim_intOp (only_int .ge fun _ _ => rfl) hl hr

theorem sim_unop (b : Build) (op : UnOp) {x y : E Value} (h : SimE ρ Eq x y) : SimE ρ Eq (unopT b op x) (unopT b op y) :=
  h.bindEq fun _ => sim_pure (only_unop nameless (.inl nameless_panic) op (only_ok _))

theorem only_getBytes (fs : Fs) (i j : Nat) : Only Nameless (fs.getBytes i j) := by
  unfold Fs.getBytes
  split
  · split
    · exact only_ok _
    · exact only_err nameless _ (by simp)
  · exact only_err nameless _ (by simp)

theorem getBytes_length {fs : Fs} {i j : Nat} {b : Bytes} (h : fs.getBytes i j = .ok b) : b.length ≤ j - i := by
  unfold Fs.getBytes at h
  split at h
  · split at h
    · simp only [Except.ok.injEq] at h
      rw [← h]
      simp only [List.length_take, List.length_drop]
      omega
    · simp at h
  · simp at h

theorem sim_castOp (b : Build) (fs : Option Fs) (ty : Expr) {x y : E Value} (h : SimE ρ Eq x y) :
    SimE ρ Eq (castOpT b fs ty x) (castOpT b fs ty y) := by
  refine h.bindEq fun v => sim_then (only_asInteger nameless _) fun i _ => ?_
  split
  · exact sim_pure (only_err nameless _ (by simp))
  · dsimp only
    split
    · split
      · exact sim_pure (only_error nameless_panic)
      · rename_i s hs
        split
        · exact sim_pure (only_err nameless _ (by simp))
        · refine sim_then (only_usizeAdd (.inl nameless_panic) _ _) fun stop h1 => ?_
          have h3 := usizeAdd_le h1
          have h4 := structs_small s (findStruct_mem' hs)
          refine Sim.bytes _ _ _ fun g => ?_
          cases hg : g.getBytes (asUsize i) stop with
          | error e => exact .ret (renameFail_nameless (only_getBytes g _ _ e hg)).symm
          | ok bytes =>
            have h5 := getBytes_length hg
            have h6 : bytes.length < 2 ^ 63 := by split at h3 <;> omega
            exact sim_then (r := structFromBytes b s none bytes) (only_decode nameless b (findStruct_mem' hs) none h6) fun _ _ => sim_pure (only_ok _)
    · exact sim_pure (only_error nameless_panic)

/-- the arguments, side by side -/
def SimArgs (ρ : Str → Str) (xs ys : List (E Value)) : Prop := List.Forall₂ (SimE ρ Eq) xs ys

theorem forall₂_length {Q : α → β → Prop} : ∀ {xs : List α} {ys : List β}, List.Forall₂ Q xs ys → ys.length = xs.length
  | _, _, .nil => rfl
  | _, _, .cons _ h => by rw [List.length_cons, List.length_cons, forall₂_length h]

theorem sim_intArgs : ∀ {xs ys : List (E Value)}, SimArgs ρ xs ys → SimE ρ Eq (intArgsT xs) (intArgsT ys)
  | _, _, .nil => sim_pure (only_ok _)
  | _, _, .cons h hs => h.bindEq fun _ => sim_then (only_asInteger nameless _) fun _ _ =>
      (sim_intArgs hs).bindEq fun _ => sim_pure (only_ok _)

theorem sim_keyFn (b : Build) {xs ys : List (E Value)} (h : SimArgs ρ xs ys) : SimE ρ Eq (keyFnT b xs) (keyFnT b ys) := by
  have hl : ys.length = xs.length := forall₂_length h
  unfold keyFnT
  rw [hl]
  refine sim_then (only_ensure nameless _ _ (by simp)) fun _ _ => (sim_intArgs h).bindEq fun vals => sim_pure ?_
  refine only_keyFn nameless _ fun r hr => ?_
  obtain ⟨v, -, rfl⟩ := List.mem_map.1 hr
  exact only_ok _

theorem sim_decodeItems (b : Build) : ∀ {items : List Item}, (∀ it ∈ items, GoodItem it) →
    SimE ρ Eq (decodeItemsT b items) (decodeItemsT b items)
  | [], _ => sim_pure (only_ok _)
  | (hd, bytes) :: its, hg => by
    simp only [List.mem_cons, forall_eq_or_imp] at hg
    unfold decodeItemsT
    split
    · rename_i s hs
      refine sim_then (only_decode nameless b (structForKey_mem hs) _ ?_) fun _ _ =>
        (sim_decodeItems b hg.2).bindEq fun _ => sim_pure (only_ok _)
      have := hg.1.2.2.2
      simp only at this; omega
    · exact Sim.warn _ (sim_decodeItems b hg.2)

theorem sim_searchFn (b : Build) (fs : Option Fs) {xs ys : List (E Value)} (h : SimArgs ρ xs ys) :
    SimE ρ Eq (searchFnT b fs xs) (searchFnT b fs ys) := by
  have hl : ys.length = xs.length := forall₂_length h
  unfold searchFnT
  rw [hl]
  refine sim_then (only_ensure nameless _ _ (by simp)) fun _ h0 => ?_
  have h0 := ensure_inv h0
  simp only [beq_iff_eq] at h0
  match xs, ys, h, h0 with
  | [x0, x1], [y0, y1], .cons h1 (.cons h2 .nil), _ =>
    refine h1.bindEq fun _ => sim_then (only_asInteger nameless _) fun _ _ => h2.bindEq fun _ =>
      sim_then (only_asStruct nameless _) fun _ _ => sim_then (only_ensure nameless _ _ (by simp)) fun _ _ => ?_
    split
    · exact sim_pure (only_err nameless _ (by simp))
    · refine sim_then (only_searchArgs nameless _ _) fun sa _ => ?_
      refine Sim.search _ _ fun fuel g => ?_
      cases hg : g.search fuel sa with
      | error e => exact .ret (renameFail_nameless (only_search nameless _ _ _ e hg)).symm
      | ok its => exact (sim_decodeItems b (search_good hg)).bindEq fun _ => sim_pure (only_ok _)

theorem sim_arg1 {S : γ → δ → Prop} {msg : Str} {f : Value → E γ} {g : Value → E δ} (hf : ∀ v, SimE ρ S (f v) (g v))
    {xs ys : List (E Value)} (h : SimArgs ρ xs ys) : SimE ρ S (arg1T msg xs >>= f) (arg1T msg ys >>= g) := by
  refine SimE.bindEq ?_ hf
  have hl : ys.length = xs.length := forall₂_length h
  unfold arg1T
  rw [hl]
  refine sim_then (only_ensure nameless _ _ (by simp)) fun _ h0 => ?_
  have h0 := ensure_inv h0
  simp only [beq_iff_eq] at h0
  match xs, ys, h, h0 with
  | [x0], [y0], .cons h1 .nil, _ => exact h1

theorem only_one {v : Value} : ∀ r ∈ [(.ok v : R Value)], Only Nameless r := by
  intro r hr
  rw [List.mem_singleton] at hr
  subst hr
  exact only_ok _

theorem sim_callFn (cfg : Cfg) (fs : Option Fs) {f g : E Value} (hf : SimE ρ Eq f g) {xs ys : List (E Value)}
    (h : SimArgs ρ xs ys) : SimE ρ Eq (callFnT cfg fs f xs) (callFnT cfg fs g ys) := by
  have hl : ys.length = xs.length := forall₂_length h
  refine hf.bindEq fun fv => sim_then (only_asFunction nameless _) fun fn _ => ?_
  have hcall : ∀ (fn : Function) v, Only Nameless (callFn cfg fs (.ok (.func fn)) [.ok v]) := fun fn v =>
    only_callFn nameless cfg fs (only_ok _) only_one
  cases fn
  case key => exact sim_keyFn _ h
  case search => exact sim_searchFn _ _ h
  case typeOf => exact sim_arg1 (fun v => sim_pure (hcall .typeOf v)) h
  case keyOf => exact sim_arg1 (fun v => sim_pure (hcall .keyOf v)) h
  case len => exact sim_arg1 (fun v => sim_pure (hcall .len v)) h
  case hist =>
    have : ys.isEmpty = xs.isEmpty := by cases xs <;> cases ys <;> simp_all
    dsimp only
    rw [this]
    exact sim_then (only_ensure nameless _ _ (by simp)) fun _ _ => sim_pure (only_ok _)
  case str => exact sim_arg1 (fun v => sim_pure (hcall .str v)) h

theorem sim_fieldOp {x y : E Value} (h : SimE ρ Eq x y) (f : Expr) : SimE ρ Eq (fieldOpT x f) (fieldOpT y f) :=
  h.bindEq fun _ => sim_pure (only_fieldOp nameless (only_ok _) f)

theorem sim_indexOp {x y i j : E Value} (h : SimE ρ Eq x y) (hi : SimE ρ Eq i j) : SimE ρ Eq (indexOpT x i) (indexOpT y j) :=
  h.bindEq fun _ => sim_then (only_asVec nameless _) fun _ _ => hi.bindEq fun _ =>
    sim_then (only_asInteger nameless _) fun _ _ => sim_then (only_tryUnsigned nameless _ _) fun _ _ =>
      sim_pure (only_orErr nameless _ _ (by simp))

end

end Btrd
