/-
Two configurations compared: every run under the first gives the same as under the second, or ends in one
of a set of failures. Used with "diverge" (more loop iterations allowed: C67) and with "panic" (overflow
checks removed: C71).
-/
import Verif.Model.Runtime
import Verif.Lemmas.Vars
import Verif.Lemmas.EvalInd
import Verif.Lemmas.Decode
import Verif.Lemmas.Runtime
import Verif.Props.Control

namespace Btrd
open Spec

section
variable {α β : Type} {S : Fail → Prop}

/-- the first result is the second, or a failure of `S` -/
def Apx (S : Fail → Prop) (r r' : R α) : Prop := r = r' ∨ ∃ f, S f ∧ r = .error f

/-- the same for a run of statements -/
def ApxI (S : Fail → Prop) (r r' : State × IRes) : Prop := r = r' ∨ ∃ f, S f ∧ r.2 = .fail f

theorem Apx.refl (r : R α) : Apx S r r := .inl rfl

theorem ApxI.refl (r : State × IRes) : ApxI S r r := .inl rfl

theorem Apx.fail {f : Fail} (h : S f) (r' : R α) : Apx S (.error f) r' := .inr ⟨f, h, rfl⟩

theorem apx_bind {x x' : R α} {g g' : α → R β} (h : Apx S x x') (hg : ∀ a, Apx S (g a) (g' a)) :
    Apx S (x >>= g) (x' >>= g') := by
  rcases h with rfl | ⟨f, hf, rfl⟩
  · cases x with
    | ok a => exact hg a
    | error f => exact .inl rfl
  · exact .inr ⟨f, hf, rfl⟩

theorem apx_bind' {x : R α} {g g' : α → R β} (hg : ∀ a, Apx S (g a) (g' a)) : Apx S (x >>= g) (x >>= g') :=
  apx_bind (.refl _) hg

theorem apx_ite {c : Prop} [Decidable c] {x x' y y' : R α} (h1 : Apx S x x') (h2 : Apx S y y') :
    Apx S (if c then x else y) (if c then x' else y') := by
  split
  · exact h1
  · exact h2

end

/-- build configurations: equal, or the first checks for overflow and panics are in `S` -/
def FinerB (S : Fail → Prop) (b b' : Build) : Prop := b = b' ∨ (b.ovfChecks = true ∧ S .panic)

/-- loop bounds: equal, or the second is larger and divergence is in `S` -/
def FinerN (S : Fail → Prop) (n n' : Nat) : Prop := n = n' ∨ (n ≤ n' ∧ S .diverge)

/-- the first configuration differs from the second only in failing more often, with failures of `S` -/
structure Finer (S : Fail → Prop) (cfg cfg' : Cfg) : Prop where
  build : FinerB S cfg.build cfg'.build
  fuel : FinerN S cfg.fuel cfg'.fuel
  host : cfg.host = cfg'.host
  interactive : cfg.interactive = cfg'.interactive

section
variable {S : Fail → Prop}

theorem apx_usizeAdd {b b' : Build} (h : FinerB S b b') (x y : Nat) : Apx S (usizeAdd b x y) (usizeAdd b' x y) := by
  rcases h with rfl | ⟨h, hS⟩
  · exact .refl _
  · unfold usizeAdd
    split
    · exact .refl _
    · exact .fail hS _

theorem apx_usizeMul {b b' : Build} (h : FinerB S b b') (x y : Nat) : Apx S (usizeMul b x y) (usizeMul b' x y) := by
  rcases h with rfl | ⟨h, hS⟩
  · exact .refl _
  · unfold usizeMul
    split
    · exact .refl _
    · exact .fail hS _

theorem apx_negI128 {b b' : Build} (h : FinerB S b b') (x : Int) : Apx S (negI128 b x) (negI128 b' x) := by
  rcases h with rfl | ⟨h, hS⟩
  · exact .refl _
  · unfold negI128
    split
    · exact .fail hS _
    · exact .refl _

/-! ### decoding -/

theorem apx_arrayLoop {f f' : Bytes → R Value} (hf : ∀ s, Apx S (f s) (f' s)) (size : Nat) (bytes : Bytes) :
    ∀ k i, Apx S (arrayLoop f size bytes k i) (arrayLoop f' size bytes k i) := by
  intro k
  induction k with
  | zero => intro i; exact .refl _
  | succ k ih => intro i; exact apx_bind' fun s => apx_bind (hf s) fun v => apx_bind (ih _) fun vs => .refl _

theorem apx_trailingLoop {f f' : Bytes → R Value} (hf : ∀ s, Apx S (f s) (f' s)) (size : Nat) (bytes : Bytes) :
    ∀ k o, Apx S (trailingLoop f size bytes k o) (trailingLoop f' size bytes k o) := by
  intro k
  induction k with
  | zero => intro i; exact .refl _
  | succ k ih => intro i; exact apx_bind' fun s => apx_bind (hf s) fun v => apx_bind (ih _) fun vs => .refl _

theorem apx_fieldWrap {f f' : Bytes → R Value} (hf : ∀ s, Apx S (f s) (f' s)) (name : Option Str) (size : Nat)
    (bytes : Bytes) : Apx S (fieldWrap name size f bytes) (fieldWrap name size f' bytes) := by
  unfold fieldWrap
  refine apx_ite ?_ (.refl _)
  rcases hf bytes with h | ⟨e, he, h⟩
  · rw [h]; exact .refl _
  · rw [h]; exact .fail he _

/-- the step for a field that is neither trailing nor dynamic -/
def plainStep (f : Bytes → R Value) (size : Nat) (name : Option Str) (bytes : Bytes) (o : Nat)
    (acc : List (Str × Value)) : R (Nat × List (Str × Value)) :=
  match sliceFrom bytes o with
  | .error e => .error e
  | .ok s =>
    match fieldWrap name size f s with
    | .ok vs => .ok (o + size, acc ++ vs)
    | .error e => .error e

theorem apx_plainStep {f f' : Bytes → R Value} (hf : ∀ s, Apx S (f s) (f' s)) {size : Nat} (name : Option Str)
    (bytes : Bytes) (o : Nat) (acc : List (Str × Value)) :
    Apx S (plainStep f size name bytes o acc) (plainStep f' size name bytes o acc) := by
  unfold plainStep
  cases sliceFrom bytes o with
  | error e => exact .refl _
  | ok s =>
    simp only
    rcases apx_fieldWrap hf name size s with h | ⟨e, he, h⟩
    · rw [h]; exact .refl _
    · rw [h]; exact .fail he _

variable {b b' : Build} (hb : FinerB S b b')
include hb

theorem apx_trailingString (what : Str) (name : Option Str) (l : Str) (bytes : Bytes) (o : Nat) (acc : List (Str × Value)) :
    Apx S (trailingStringStep b what name l bytes o acc) (trailingStringStep b' what name l bytes o acc) :=
  apx_bind' fun _ => apx_bind (apx_usizeAdd hb _ _) fun _ => .refl _

theorem apx_trailingTypes (what : Str) {f f' : Bytes → R Value} (hf : ∀ s, Apx S (f s) (f' s)) (name : Option Str) (size : Nat)
    (l : Str) (bytes : Bytes) (o : Nat) (acc : List (Str × Value)) :
    Apx S (trailingTypesStep b what name f size l bytes o acc) (trailingTypesStep b' what name f' size l bytes o acc) := by
  refine apx_bind' fun _ => apx_bind (apx_usizeMul hb _ _) fun _ => apx_bind (apx_usizeAdd hb _ _) fun _ => ?_
  refine apx_ite ?_ (.refl _)
  exact apx_bind (apx_trailingLoop hf _ _ _ _) fun _ => .refl _

mutual
theorem apx_toValue : ∀ (t : Ty) (bytes : Bytes), Apx S (toValue b t bytes) (toValue b' t bytes)
  | .u8, bytes => .refl _
  | .u16, bytes => .refl _
  | .u32, bytes => .refl _
  | .u64, bytes => .refl _
  | .trailingString _, _ => .refl _
  | .trailingTypes _ _, _ => .refl _
  | .dynamic _, _ => .refl _
  | .array t n, bytes => by
    simp only [toValue]
    rcases apx_arrayLoop (apx_toValue t) t.size bytes n 0 with h | ⟨e, he, h⟩
    · rw [h]; exact .refl _
    · rw [h]; exact .fail he _
  | .struct name fs, bytes => by
    simp only [toValue]
    refine apx_ite ?_ (.refl _)
    rcases apx_fieldsLoop name fs bytes 0 [] with h | ⟨e, he, h⟩
    · rw [h]; exact .refl _
    · rw [h]; exact .fail he _
  | .union name fs, bytes => by
    simp only [toValue]
    rcases apx_unionLoop fs bytes with h | ⟨e, he, h⟩
    · rw [h]; exact .refl _
    · rw [h]; exact .fail he _
theorem apx_fieldsLoop (what : Str) : ∀ (fs : List (Option Str × Ty)) (bytes : Bytes) (o : Nat) (acc : List (Str × Value)),
    Apx S (fieldsLoop b what fs bytes o acc) (fieldsLoop b' what fs bytes o acc)
  | [], _, _, _ => .refl _
  | f :: fs, bytes, o, acc => by
    simp only [fieldsLoop]
    rcases apx_fieldStep what f bytes o acc with h | ⟨e, he, h⟩
    · rw [h]
      cases fieldStep b' what f bytes o acc with
      | error e => exact .refl _
      | ok r => exact apx_fieldsLoop what fs bytes r.1 r.2
    · rw [h]; exact .fail he _
theorem apx_fieldStep (what : Str) : ∀ (f : Option Str × Ty) (bytes : Bytes) (o : Nat) (acc : List (Str × Value)),
    Apx S (fieldStep b what f bytes o acc) (fieldStep b' what f bytes o acc)
  | (name, .trailingString n), bytes, o, acc => apx_trailingString hb what _ _ _ _ _
  | (name, .trailingTypes t n), bytes, o, acc => apx_trailingTypes hb what (apx_toValue t) _ _ _ _ _ _
  | (name, .dynamic cb), bytes, o, acc => by
    have h := fun s => apx_dynStep what (cb s) s o acc
    have e : ∀ b, fieldStep b what (name, .dynamic cb) bytes o acc = match sliceFrom bytes o with
      | .error e => .error e
      | .ok s => dynStep b what (cb s) s o acc := fun _ => rfl
    rw [e, e]
    cases sliceFrom bytes o with
    | error e => exact .refl _
    | ok s => exact h s
  | (name, .u8), bytes, o, acc => apx_plainStep (apx_toValue .u8) name bytes o acc
  | (name, .u16), bytes, o, acc => apx_plainStep (apx_toValue .u16) name bytes o acc
  | (name, .u32), bytes, o, acc => apx_plainStep (apx_toValue .u32) name bytes o acc
  | (name, .u64), bytes, o, acc => apx_plainStep (apx_toValue .u64) name bytes o acc
  | (name, .array t n), bytes, o, acc => apx_plainStep (apx_toValue (.array t n)) name bytes o acc
  | (name, .struct n fs), bytes, o, acc => apx_plainStep (apx_toValue (.struct n fs)) name bytes o acc
  | (name, .union n fs), bytes, o, acc => apx_plainStep (apx_toValue (.union n fs)) name bytes o acc
theorem apx_dynStep (what : Str) : ∀ (x : Except Fail (List (Option Str × Ty))) (s : Bytes) (o : Nat) (acc : List (Str × Value)),
    Apx S (dynStep b what x s o acc) (dynStep b' what x s o acc)
  | .error e, _, _, _ => .refl _
  | .ok fs, s, o, acc => by
    have h := apx_fieldsLoop what fs s 0 []
    simp only [dynStep]
    refine apx_ite (apx_ite ?_ (.refl _)) (.refl _)
    rcases h with h | ⟨e, he, h⟩
    · rw [h]; exact .refl _
    · rw [h]; exact .fail he _
theorem apx_unionLoop : ∀ (fs : List (Option Str × Ty)) (bytes : Bytes),
    Apx S (unionLoop b fs bytes) (unionLoop b' fs bytes)
  | [], _ => .refl _
  | (name, t) :: fs, bytes => by
    simp only [unionLoop]
    rcases apx_fieldWrap (apx_toValue t) name t.size bytes with h | ⟨e, he, h⟩
    · rw [h]
      cases fieldWrap name t.size (toValue b' t) bytes with
      | error e => exact .refl _
      | ok r =>
        simp only
        rcases apx_unionLoop fs bytes with h | ⟨e, he, h⟩
        · rw [h]; exact .refl _
        · rw [h]; exact .fail he _
    · rw [h]; exact .fail he _
end

theorem apx_structFromBytes (s : StructDef) (key : Option (Int × Int × Int)) (bytes : Bytes) :
    Apx S (structFromBytes b s key bytes) (structFromBytes b' s key bytes) := by
  unfold structFromBytes
  refine apx_ite ?_ (.refl _)
  rcases apx_fieldsLoop hb s.name s.fields bytes 0 [] with h | ⟨e, he, h⟩
  · rw [h]; exact .refl _
  · rw [h]; exact .fail he _

theorem apx_decodeItems : ∀ its : List Item, Apx S (decodeItems b its) (decodeItems b' its)
  | [] => .refl _
  | (h, bytes) :: its => by
    have ih := apx_decodeItems its
    unfold decodeItems
    split
    · exact apx_bind (apx_structFromBytes hb _ _ _) fun _ => apx_bind ih fun _ => .refl _
    · exact ih

omit hb

/-! ### loops with a bound -/

theorem apx_pow2Up (x : Int) : ∀ n n', FinerN S n n' → ∀ i, Apx S (pow2Up x n i) (pow2Up x n' i) := by
  intro n
  induction n with
  | zero =>
    rintro n' (rfl | ⟨-, h⟩) i
    · exact .refl _
    · exact .fail h _
  | succ n ih =>
    rintro n' (rfl | ⟨hle, h⟩) i
    · exact .refl _
    · cases n' with
      | zero => omega
      | succ n' => exact apx_ite (ih n' (.inr ⟨by omega, h⟩) _) (.refl _)

theorem apx_pow2Down (x : Int) : ∀ n n', FinerN S n n' → ∀ i, Apx S (pow2Down x n i) (pow2Down x n' i) := by
  intro n
  induction n with
  | zero =>
    rintro n' (rfl | ⟨-, h⟩) i
    · exact .refl _
    · exact .fail h _
  | succ n ih =>
    rintro n' (rfl | ⟨hle, h⟩) i
    · exact .refl _
    · cases n' with
      | zero => omega
      | succ n' => exact apx_ite (ih n' (.inr ⟨by omega, h⟩) _) (.refl _)

theorem apx_previousPower2 {n n' : Nat} (h : FinerN S n n') (x : Int) :
    Apx S (previousPower2 n x) (previousPower2 n' x) :=
  apx_ite (.refl _) (apx_ite (apx_bind (apx_pow2Up x n n' h 1) fun _ => .refl _) (apx_pow2Down x n n' h (-1)))

theorem apx_nextPower2 {n n' : Nat} (h : FinerN S n n') (x : Int) : Apx S (nextPower2 n x) (nextPower2 n' x) :=
  apx_ite (.refl _) (apx_ite (.refl _) (apx_ite (apx_bind (apx_previousPower2 h x) fun _ => .refl _)
    (apx_bind (apx_previousPower2 h x) fun _ => .refl _)))

theorem apx_bucketLoop {n n' : Nat} (h : FinerN S n n') (vals : List Int) (maxv : Int) :
    ∀ m m', FinerN S m m' → ∀ cur, Apx S (bucketLoop n vals maxv m cur) (bucketLoop n' vals maxv m' cur) := by
  intro m
  induction m with
  | zero =>
    rintro m' (rfl | ⟨-, h⟩) i
    · exact .refl _
    · exact .fail h _
  | succ m ih =>
    rintro m' hm i
    cases m' with
    | zero => rcases hm with hm | ⟨hm, -⟩ <;> omega
    | succ m' =>
      have : FinerN S m m' := by
        rcases hm with hm | ⟨hm, hs⟩
        · exact .inl (by omega)
        · exact .inr ⟨by omega, hs⟩
      exact apx_ite (apx_bind (apx_nextPower2 h _) fun _ => apx_bind (ih m' this _) fun _ => .refl _) (.refl _)

theorem apx_histBuckets {n n' : Nat} (h : FinerN S n n') (v : Int) (vs : List Int) :
    Apx S (histBuckets n v vs) (histBuckets n' v vs) :=
  apx_bind (apx_previousPower2 h _) fun _ => apx_bucketLoop h _ _ _ _ h _

theorem apx_numBytes (hb : FinerB S b b') {n n' : Nat} (h : FinerN S n n') (x : Int) :
    Apx S (numBytesToPretty b n x) (numBytesToPretty b' n' x) :=
  apx_bind (apx_previousPower2 h _) fun _ => apx_ite (.refl _) (apx_ite (.refl _)
    (apx_ite (apx_bind (apx_negI128 hb _) fun _ => .refl _) (.refl _)))

theorem apx_bucketLines (hb : FinerB S b b') {n n' : Nat} (h : FinerN S n n') (total : Nat) :
    ∀ ks, Apx S (bucketLines b n total ks) (bucketLines b' n' total ks)
  | [] => .refl _
  | k :: ks => apx_bind (apx_bind (apx_numBytes hb h _) fun _ => apx_bind (apx_numBytes hb h _) fun _ => .refl _)
      fun _ => apx_bind (apx_bucketLines hb h total ks) fun _ => .refl _

theorem apx_asHist (hb : FinerB S b b') {n n' : Nat} (h : FinerN S n n') (vec : List Value) :
    Apx S (asHist b n vec) (asHist b' n' vec) := by
  refine apx_bind' fun vals => ?_
  cases vals with
  | nil => exact .refl _
  | cons v vs => exact apx_bind (apx_histBuckets h _ _) fun _ => apx_bucketLines hb h _ _

theorem apx_searchLoop (k : Kernel) (retry : Bool) : ∀ n n', FinerN S n n' → ∀ i args ret c,
    Apx S (searchLoop k retry n i args ret c) (searchLoop k retry n' i args ret c) := by
  intro n
  induction n with
  | zero =>
    rintro n' (rfl | ⟨-, h⟩) i args ret c
    · exact .refl _
    · exact .fail h _
  | succ n ih =>
    rintro n' hn i args ret c
    cases n' with
    | zero => rcases hn with hn | ⟨hn, -⟩ <;> omega
    | succ n' =>
      have hn' : FinerN S n n' := by
        rcases hn with hm | ⟨hm, hs⟩
        · exact .inl (by omega)
        · exact .inr ⟨by omega, hs⟩
      unfold searchLoop
      cases k i args with
      | errno => exact .refl _
      | data nr buf =>
        simp only
        cases extractItems buf nr 0 ret c with
        | error e => exact .refl _
        | ok r =>
          obtain ⟨ret, c⟩ := r
          simp only
          refine apx_ite (.refl _) ?_
          cases largestKey ret with
          | error e => exact .refl _
          | ok h => exact apx_ite (apx_ite (ih n' hn' _ _ _ _) (.refl _)) (.refl _)

theorem apx_search {n n' : Nat} (h : FinerN S n n') (fs : Fs) (args : SearchArgs) :
    Apx S (fs.search n args) (fs.search n' args) := by
  cases fs with
  | unmounted img => exact .refl _
  | mounted k =>
    unfold Fs.search
    simp only
    rcases apx_searchLoop k _ n n' h 0 args [] 0 with h | ⟨e, he, h⟩
    · rw [h]; exact .refl _
    · rw [h]; exact .fail he _

/-! ### expressions -/

theorem apx_intOp {f : Int → Int → R Value} {l l' r r' : R Value} (hl : Apx S l l') (hr : Apx S r r') :
    Apx S (intOp f l r) (intOp f l' r') :=
  apx_bind hl fun _ => apx_bind' fun _ => apx_bind hr fun _ => .refl _

theorem apx_binop (op : BinOp) {l l' r r' : R Value} (hl : Apx S l l') (hr : Apx S r r') :
    Apx S (binop op l r) (binop op l' r') := by
  cases op
  case plus => exact apx_bind hl fun _ => apx_bind hr fun _ => .refl _
  case eq => exact apx_bind hl fun _ => apx_bind hr fun _ => .refl _
  case ne => exact apx_bind hl fun _ => apx_bind hr fun _ => .refl _
  case lor => exact apx_bind hl fun _ => apx_bind' fun _ => apx_ite (.refl _) (apx_bind hr fun _ => .refl _)
  case land => exact apx_bind hl fun _ => apx_bind' fun _ => apx_ite (.refl _) (apx_bind hr fun _ => .refl _)
  all_goals exact apx_intOp hl hr

theorem apx_unop (hb : FinerB S b b') (op : UnOp) {r r' : R Value} (hr : Apx S r r') :
    Apx S (unop b op r) (unop b' op r') := by
  cases op
  case bitNot => exact apx_bind hr fun _ => .refl _
  case not => exact apx_bind hr fun _ => .refl _
  case minus => exact apx_bind hr fun _ => apx_bind' fun _ => apx_bind (apx_negI128 hb _) fun _ => .refl _

theorem apx_castOp (hb : FinerB S b b') (fs : Option Fs) (ty : Expr) {r r' : R Value} (hr : Apx S r r') :
    Apx S (castOp b fs ty r) (castOp b' fs ty r') := by
  refine apx_bind hr fun _ => apx_bind' fun _ => apx_ite (.refl _) ?_
  dsimp only
  split
  · split
    · exact .refl _
    · split
      · exact .refl _
      · exact apx_bind (apx_usizeAdd hb _ _) fun _ => apx_bind' fun _ =>
          apx_bind (apx_structFromBytes hb _ _ _) fun _ => .refl _
  · exact .refl _

/-- pointwise -/
inductive ApxL (S : Fail → Prop) : List (R Value) → List (R Value) → Prop
  | nil : ApxL S [] []
  | cons {r r' rs rs'} : Apx S r r' → ApxL S rs rs' → ApxL S (r :: rs) (r' :: rs')

theorem ApxL.length {rs rs' : List (R Value)} (h : ApxL S rs rs') : rs.length = rs'.length := by
  induction h with
  | nil => rfl
  | cons _ _ ih => simp [ih]

theorem apx_intArgs {rs rs' : List (R Value)} (h : ApxL S rs rs') : Apx S (intArgs rs) (intArgs rs') := by
  induction h with
  | nil => exact .refl _
  | cons h _ ih => exact apx_bind h fun _ => apx_bind' fun _ => apx_bind ih fun _ => .refl _

theorem apx_arg1 {msg : Str} {rs rs' : List (R Value)} (h : ApxL S rs rs') : Apx S (arg1 msg rs) (arg1 msg rs') := by
  unfold arg1
  rw [h.length]
  refine apx_bind' fun _ => ?_
  cases h with
  | nil => exact .refl _
  | cons h1 h2 => cases h2 with
    | nil => exact h1
    | cons h3 h4 => exact .refl _

theorem apx_keyFn (hb : FinerB S b b') {rs rs' : List (R Value)} (h : ApxL S rs rs') :
    Apx S (keyFn b rs) (keyFn b' rs') := by
  unfold keyFn
  rw [h.length]
  exact apx_bind' fun _ => apx_bind (apx_intArgs h) fun _ => apx_bind (apx_structFromBytes hb _ _ _) fun _ => .refl _

variable {cfg cfg' : Cfg} (hc : Finer S cfg cfg')
include hc

theorem apx_searchFn (fs : Option Fs) {rs rs' : List (R Value)} (h : ApxL S rs rs') :
    Apx S (searchFn cfg fs rs) (searchFn cfg' fs rs') := by
  unfold searchFn
  rw [h.length]
  refine apx_bind' fun _ => ?_
  cases h with
  | nil => exact .refl _
  | cons h1 h2 => cases h2 with
    | nil => exact .refl _
    | cons h3 h4 => cases h4 with
      | cons _ _ => exact .refl _
      | nil =>
        refine apx_bind h1 fun _ => apx_bind' fun _ => apx_bind h3 fun _ => apx_bind' fun _ => apx_bind' fun _ => ?_
        cases fs with
        | none => exact .refl _
        | some fs =>
          exact apx_bind' fun _ => apx_bind (apx_search hc.fuel _ _) fun _ =>
            apx_bind (apx_decodeItems hc.build _) fun _ => .refl _

theorem apx_callFn (fs : Option Fs) {f f' : R Value} (hf : Apx S f f') {rs rs' : List (R Value)} (h : ApxL S rs rs') :
    Apx S (callFn cfg fs f rs) (callFn cfg' fs f' rs') := by
  refine apx_bind hf fun _ => apx_bind' fun fn => ?_
  cases fn
  case key => exact apx_keyFn hc.build h
  case search => exact apx_searchFn hc fs h
  case typeOf => exact apx_bind (apx_arg1 h) fun _ => .refl _
  case keyOf =>
    refine apx_bind (apx_arg1 h) fun _ => apx_bind' fun s => ?_
    split
    · exact apx_bind (apx_structFromBytes hc.build _ _ _) fun _ => .refl _
    · exact .refl _
  case len => exact apx_bind (apx_arg1 h) fun _ => .refl _
  case hist =>
    have : rs.isEmpty = rs'.isEmpty := by
      have := h.length
      cases rs <;> cases rs' <;> simp_all
    simp only [histFn, this]
    exact .refl _
  case str => exact apx_bind (apx_arg1 h) fun _ => .refl _

mutual
theorem apx_evalExpr (st : State) : ∀ e : Expr, Apx S (evalExpr cfg st e) (evalExpr cfg' st e)
  | .ident _ => .refl _
  | .int _ => .refl _
  | .bool _ => .refl _
  | .str _ => .refl _
  | .paren e => by simp only [evalExpr]; exact apx_evalExpr st e
  | .field e f => by simp only [evalExpr]; exact apx_bind (apx_evalExpr st e) fun _ => .refl _
  | .index e i => by
    simp only [evalExpr]
    exact apx_bind (apx_evalExpr st e) fun _ => apx_bind' fun _ => apx_bind (apx_evalExpr st i) fun _ => .refl _
  | .call f args => by simp only [evalExpr]; exact apx_callFn hc _ (apx_evalExpr st f) (apx_evalArgs st args)
  | .bin op l r => by simp only [evalExpr]; exact apx_binop op (apx_evalExpr st l) (apx_evalExpr st r)
  | .un op e => by simp only [evalExpr]; exact apx_unop hc.build op (apx_evalExpr st e)
  | .cast ty e => by simp only [evalExpr]; exact apx_castOp hc.build _ ty (apx_evalExpr st e)
theorem apx_evalArgs (st : State) : ∀ es : List Expr, ApxL S (evalArgs cfg st es) (evalArgs cfg' st es)
  | [] => by simp only [evalArgs]; exact .nil
  | e :: es => by simp only [evalArgs]; exact .cons (apx_evalExpr st e) (apx_evalArgs st es)
end

theorem apx_evalCond (st : State) (e : Expr) : Apx S (evalCond cfg st e) (evalCond cfg' st e) :=
  apx_bind (apx_evalExpr hc st e) fun _ => .refl _

theorem apx_printText (v : Value) : Apx S (printText cfg v) (printText cfg' v) := by
  unfold printText
  split
  · exact apx_asHist hc.build hc.fuel _
  · exact .refl _
  · exact .refl _

theorem apx_modifyLhs (st : State) : ∀ (l : Expr) (f : Value → R Value),
    Apx S (modifyLhs cfg st l f) (modifyLhs cfg' st l f)
  | .ident _, f => .refl _
  | .field e fld, f => by
    unfold modifyLhs
    split
    · exact apx_modifyLhs st e _
    · exact .refl _
  | .index e i, f => by
    unfold modifyLhs
    exact apx_bind (apx_evalExpr hc st i) fun _ => apx_bind' fun _ => apx_modifyLhs st e _
  | .int _, f => .refl _
  | .bool _, f => .refl _
  | .str _, f => .refl _
  | .paren _, f => .refl _
  | .call _ _, f => .refl _
  | .bin _ _ _, f => .refl _
  | .un _ _, f => .refl _
  | .cast _ _, f => .refl _

/-! ### statements -/

theorem apxI_assign (st : State) (l r : Expr) : ApxI S (evalAssign cfg st l r) (evalAssign cfg' st l r) := by
  unfold evalAssign
  rcases apx_evalExpr hc st r with h | ⟨f, hf, h⟩
  · rw [h]
    cases evalExpr cfg' st r with
    | error f => exact .refl _
    | ok v =>
      simp only
      cases l <;> simp only <;> first
        | exact .refl _
        | (rename_i e f
           rcases apx_modifyLhs hc st _ (fun _ => .ok v) with h | ⟨e, he, h⟩
           · rw [h]; exact .refl _
           · rw [h]; exact .inr ⟨e, he, rfl⟩)
        | (rename_i e
           rcases apx_modifyLhs hc st _ (fun _ => .ok v) with h | ⟨e, he, h⟩
           · rw [h]; exact .refl _
           · rw [h]; exact .inr ⟨e, he, rfl⟩)
  · rw [h]; exact .inr ⟨f, hf, rfl⟩

theorem apxI_filesystem (st : State) (e : Expr) : ApxI S (evalFilesystem cfg st e) (evalFilesystem cfg' st e) := by
  unfold evalFilesystem
  rw [hc.host]
  rcases apx_evalExpr hc st e with h | ⟨f, hf, h⟩
  · rw [h]
    cases evalExpr cfg' st e with
    | error f => exact .refl _
    | ok v =>
      simp only
      exact .refl _
  · rw [h]; exact .inr ⟨f, hf, rfl⟩

theorem apxI_print (st : State) (e : Expr) : ApxI S (evalPrint cfg st e) (evalPrint cfg' st e) := by
  unfold evalPrint
  rcases apx_evalExpr hc st e with h | ⟨f, hf, h⟩
  · rw [h]
    cases evalExpr cfg' st e with
    | error f => exact .refl _
    | ok v =>
      simp only
      rcases apx_printText hc v with h | ⟨f, hf, h⟩
      · rw [h]; exact .refl _
      · rw [h]; exact .inr ⟨f, hf, rfl⟩
  · rw [h]; exact .inr ⟨f, hf, rfl⟩

theorem apxI_exprStmt (st : State) (e : Expr) : ApxI S (evalExprStmt cfg st e) (evalExprStmt cfg' st e) := by
  unfold evalExprStmt
  rw [hc.interactive]
  rcases apx_evalExpr hc st e with h | ⟨f, hf, h⟩
  · rw [h]
    cases evalExpr cfg' st e with
    | error f => exact .refl _
    | ok v =>
      simp only
      exact .refl _
  · rw [h]; exact .inr ⟨f, hf, rfl⟩

omit hc in
theorem apxI_inScope (st : State) {body body' : State → State × IRes}
    (hg : ∀ st, Gained st.vars (body st).1.vars) (h : ∀ st, ApxI S (body st) (body' st)) :
    ApxI S (inScope st body) (inScope st body') := by
  have h1 := h { st with vars := st.vars.push }
  rcases h1 with h1 | ⟨f, hf, h1⟩
  · unfold inScope; rw [h1]; exact .refl _
  · obtain ⟨s, r, hr⟩ := gained_push (hg { st with vars := st.vars.push })
    rw [inScope_eq (st₁ := (body { st with vars := st.vars.push }).1) (r := (body { st with vars := st.vars.push }).2) rfl hr]
    exact .inr ⟨f, hf, h1⟩

omit hc in
theorem apxI_while {cond cond' : State → R Bool} {body body' : State → State × IRes}
    (hcond : ∀ st, Apx S (cond st) (cond' st)) (hbody : ∀ st, ApxI S (body st) (body' st)) :
    ∀ n n', FinerN S n n' → ∀ st, ApxI S (whileLoop cond body n st) (whileLoop cond' body' n' st) := by
  intro n
  induction n with
  | zero =>
    rintro n' (rfl | ⟨-, h⟩) st
    · exact .refl _
    · exact .inr ⟨_, h, rfl⟩
  | succ n ih =>
    rintro n' hn st
    cases n' with
    | zero => rcases hn with hn | ⟨hn, -⟩ <;> omega
    | succ n' =>
      have hn' : FinerN S n n' := by
        rcases hn with hm | ⟨hm, hs⟩
        · exact .inl (by omega)
        · exact .inr ⟨by omega, hs⟩
      unfold whileLoop
      rcases hcond st with h | ⟨f, hf, h⟩
      · rw [h]
        cases cond' st with
        | error f => exact .refl _
        | ok v => cases v with
          | false => exact .refl _
          | true =>
            simp only
            have h1 := hbody st
            generalize body st = r at h1
            generalize body' st = r' at h1
            rcases h1 with rfl | ⟨f, hf, h1⟩
            · obtain ⟨st', r⟩ := r
              cases r with
              | ok => exact ih n' hn' st'
              | cont => exact ih n' hn' st'
              | brk => exact .refl _
              | quit => exact .refl _
              | fail f => exact .refl _
            · obtain ⟨st', r⟩ := r
              simp only at h1
              subst h1
              exact .inr ⟨f, hf, rfl⟩
      · rw [h]; exact .inr ⟨f, hf, rfl⟩

omit hc in
theorem apxI_forLoop {name : Str} {body body' : State → State × IRes} (hbody : ∀ st, ApxI S (body st) (body' st)) :
    ∀ items st, ApxI S (forLoop name body items st) (forLoop name body' items st) := by
  intro items
  induction items with
  | nil => intro st; exact .refl _
  | cons v vs ih =>
    intro st
    unfold forLoop
    cases st.vars.insert name v with
    | error e => exact .refl _
    | ok vars =>
      simp only
      have h1 := hbody { st with vars := vars }
      generalize body { st with vars := vars } = r at h1
      generalize body' { st with vars := vars } = r' at h1
      rcases h1 with rfl | ⟨f, hf, h1⟩
      · obtain ⟨st', r⟩ := r
        cases r with
        | ok => exact ih st'
        | cont => exact ih st'
        | brk => exact .refl _
        | quit => exact .refl _
        | fail f => exact .refl _
      · obtain ⟨st', r⟩ := r
        simp only at h1
        subst h1
        exact .inr ⟨f, hf, rfl⟩

theorem apxI_for (x r : Expr) {body body' : State → State × IRes} (hbody : ∀ st, ApxI S (body st) (body' st))
    (st : State) : ApxI S (evalFor cfg x r body st) (evalFor cfg' x r body' st) := by
  unfold evalFor
  split
  · rcases apx_evalExpr hc st r with h | ⟨f, hf, h⟩
    · rw [h]
      cases evalExpr cfg' st r with
      | error f => exact .refl _
      | ok v =>
        simp only
        cases v.asVec with
        | error f => exact .refl _
        | ok items => exact apxI_forLoop hbody items st
    · rw [h]; exact .inr ⟨f, hf, rfl⟩
  · exact .refl _

mutual
theorem apxI_stmt : ∀ (s : Stmt) (st : State), ApxI S (evalStmt cfg s st) (evalStmt cfg' s st)
  | .assign l r, st => by rw [evalStmt, evalStmt]; exact apxI_assign hc st l r
  | .ite c t f, st => by
    rw [evalStmt, evalStmt]
    refine apxI_inScope st (fun st => ?_) fun st => ?_
    · cases evalCond cfg st c with
      | error e => exact Gained.refl _
      | ok b => cases b
                · exact evalStmts_rel (gained_closed cfg) f (allT_true f) st
                · exact evalStmts_rel (gained_closed cfg) t (allT_true t) st
    · rcases apx_evalCond hc st c with h | ⟨e, he, h⟩
      · rw [h]
        cases evalCond cfg' st c with
        | error e => exact .refl _
        | ok v => cases v with
          | true => exact apxI_stmts t st
          | false => exact apxI_stmts f st
      · rw [h]; exact .inr ⟨e, he, rfl⟩
  | .while c b, st => by
    rw [evalStmt, evalStmt]
    refine apxI_inScope st (fun st => ?_) fun st => ?_
    · exact whileLoop_rel (gained_closed cfg) _ _
        (fun st => evalStmts_rel (gained_closed cfg) b (allT_true b) st) _ st
    · exact apxI_while (fun st => apx_evalCond hc st c) (fun st => apxI_stmts b st) _ _ hc.fuel st
  | .for x r b, st => by
    rw [evalStmt, evalStmt]
    refine apxI_inScope st (fun st => ?_) fun st => ?_
    · exact evalFor_rel (gained_closed cfg) x r trivial _
        (fun st => evalStmts_rel (gained_closed cfg) b (allT_true b) st) st
    · exact apxI_for hc x r (fun st => apxI_stmts b st) st
  | .brk, st => by rw [evalStmt, evalStmt]; exact .refl _
  | .cont, st => by rw [evalStmt, evalStmt]; exact .refl _
  | .help, st => by rw [evalStmt, evalStmt]; exact .refl _
  | .quit, st => by rw [evalStmt, evalStmt]; exact .refl _
  | .filesystem e, st => by rw [evalStmt, evalStmt]; exact apxI_filesystem hc st e
  | .print e, st => by rw [evalStmt, evalStmt]; exact apxI_print hc st e
  | .expr e, st => by rw [evalStmt, evalStmt]; exact apxI_exprStmt hc st e
theorem apxI_stmts : ∀ (p : List Stmt) (st : State), ApxI S (evalStmts cfg p st) (evalStmts cfg' p st)
  | [], st => by rw [evalStmts, evalStmts]; exact .refl _
  | s :: ss, st => by
    rw [evalStmts, evalStmts]
    have h1 := apxI_stmt s st
    generalize evalStmt cfg s st = r at h1
    generalize evalStmt cfg' s st = r' at h1
    rcases h1 with rfl | ⟨f, hf, h1⟩
    · obtain ⟨st', r⟩ := r
      cases r with
      | ok => exact apxI_stmts ss st'
      | cont => exact .refl _
      | brk => exact .refl _
      | quit => exact .refl _
      | fail f => exact .refl _
    · obtain ⟨st', r⟩ := r
      simp only at h1
      subst h1
      exact .inr ⟨f, hf, rfl⟩
end

theorem apx_program (p : List Stmt) (st : State) :
    evalProgram cfg p st = evalProgram cfg' p st ∨ ∃ f, S f ∧ (evalProgram cfg p st).2 = .fail f := by
  rcases apxI_stmts hc p st with h | ⟨f, hf, h⟩
  · left; simp only [evalProgram, h]
  · right; exact ⟨f, hf, by simp only [evalProgram, h, IRes.toEvalResult]⟩

theorem apx_runtime (rs : RState) (cmd : Str) :
    runtimeEval cfg rs cmd = runtimeEval cfg' rs cmd ∨ ∃ f, S f ∧ (runtimeEval cfg rs cmd).2 = .fail f := by
  rcases runtimeEval_cases cfg rs cmd with ⟨h, he⟩ | ⟨p, e, h, h2, he⟩ | ⟨p, h, h2, he⟩ <;>
  rcases runtimeEval_cases cfg' rs cmd with ⟨h', he'⟩ | ⟨p', e', h', h2', he'⟩ | ⟨p', h', h2', he'⟩ <;>
  rw [h] at h' <;> simp only [reduceCtorEq, Option.some.injEq] at h'
  · left; rw [he, he']
  · subst h'
    left
    rw [h2] at h2'; injection h2' with h2'; subst h2'
    rw [he, he']
  · subst h'; rw [h2] at h2'; simp at h2'
  · subst h'; rw [h2] at h2'; simp at h2'
  · subst h'
    rw [he, he']
    rcases apx_program hc p rs.ev with h | ⟨f, hf, h⟩
    · left; rw [h]
    · right; exact ⟨f, hf, h⟩

/-- a whole session, when the failures of `S` are fatal -/
theorem apx_session (hS : ∀ f, S f → f = .panic ∨ f = .diverge) : ∀ (events : List ReplEvent) (rs : RState),
    replRun cfg rs events = replRun cfg' rs events ∨ ∃ f, S f ∧ (replRun cfg rs events).2 = .crashed f := by
  intro events
  induction events with
  | nil => intro rs; exact .inl rfl
  | cons e es ih =>
    intro rs
    have hstep : replStep cfg rs e = replStep cfg' rs e ∨ ∃ f, S f ∧ (replStep cfg rs e).2 = .crashed f := by
      cases e with
      | line s =>
        unfold replStep
        simp only
        rcases apx_runtime hc rs (fixupInput (stripComments s)) with h | ⟨f, hf, h⟩
        · left; rw [h]
        · right
          refine ⟨f, hf, ?_⟩
          generalize runtimeEval cfg rs (fixupInput (stripComments s)) = r at h
          obtain ⟨rs', r⟩ := r
          simp only at h
          subst h
          rcases hS f hf with rfl | rfl <;> rfl
      | interrupted => exact .inl rfl
      | eof => exact .inl rfl
      | otherError => exact .inl rfl
    rw [replRun, replRun]
    rcases hstep with h | ⟨f, hf, h⟩
    · rw [h]
      generalize replStep cfg' rs e = r
      obtain ⟨rs', r⟩ := r
      cases r with
      | running => exact ih rs'
      | exited => exact .inl rfl
      | crashed f => exact .inl rfl
    · right
      refine ⟨f, hf, ?_⟩
      generalize replStep cfg rs e = r at h
      obtain ⟨rs', r⟩ := r
      simp only at h
      subst h
      rfl

end

end Btrd
